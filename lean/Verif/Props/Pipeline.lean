/-
C70: what "NF verified!" means.
-/
import Verif.Tool.Pipeline
import Verif.Props.Infer
import Verif.Props.SymbexChoose

set_option autoImplicit false

namespace Verif.Props

open Verif.Pipeline

namespace PipelineAux

variable {B D S : Type}

theorem cachePath_ne (file : String) : file ≠ cachePath file := by
  intro h
  have := congrArg String.length h
  simp [cachePath, String.length_append] at this

theorem cachePath_inj {a b : String} (h : cachePath a = cachePath b) : a = b := by
  have h1 := congrArg String.toList h
  simp only [cachePath, String.toList_append] at h1
  exact String.toList_inj.1 (List.append_cancel_right h1)

theorem verified_mem (e : Engine B D S) (s : S) (ds : List D) : Line.verified ∈ (verify e s ds).1 ↔ e.checks s ds = true := by
  unfold verify
  split <;> simp_all

theorem verify_ok (e : Engine B D S) (s : S) (ds : List D) : (verify e s ds).2 = true ↔ e.checks s ds = true := by
  unfold verify
  split <;> simp_all

theorem write_same (fs : Files B D) (p : String) (c : Content B D) : fs.write p c p = some c := by simp [Files.write]

/-- What `verif` prints, by what the file contains. -/
theorem verif_verified (e : Engine B D S) (fs : Files B D) (p : String) (s : S) :
    Line.verified ∈ (verif e fs p (some s)).lines ↔ ∃ ds, fs p = some (.data ds) ∧ e.checks s ds = true := by
  unfold verif
  rcases h : fs p with _ | (b | ds | _) <;> simp [verified_mem]

theorem verif_ok (e : Engine B D S) (fs : Files B D) (p : String) (s : S) :
    (verif e fs p (some s)).ok = true ↔ ∃ ds, fs p = some (.data ds) ∧ e.checks s ds = true := by
  unfold verif
  rcases h : fs p with _ | (b | ds | _) <;> simp [verify_ok]

theorem verif_files (e : Engine B D S) (fs : Files B D) (p : String) (s : Option S) : (verif e fs p s).files = fs := by
  unfold verif
  rcases s with _ | s
  · rfl
  · rcases h : fs p with _ | (b | ds | _) <;> simp

end PipelineAux

open PipelineAux

/-- C70: without the option to use cached results, "NF verified!" is printed exactly if the file is a binary, its execution ends without an exception, the resulting states can be stored, and the check of the
specification accepts all of them: those of the binary as it is now, whatever the cache contains. -/
theorem C70_current {B D S : Type} (e : Engine B D S) (fs : Files B D) (c : Command) (file : String) (s : S) :
    Line.verified ∈ (handle e fs c false file (some s)).lines ↔
      ∃ b ds, fs file = some (.binary b) ∧ (if c = .libnf then e.libnf b else e.nf b) = some ds ∧ e.pickles ds = true ∧ e.checks s ds = true := by
  have hx : ∀ b, e.execute c b = (if c = .libnf then e.libnf b else e.nf b) := by intro b; cases c <;> rfl
  simp only [handle, Bool.not_false, Bool.true_or, if_true]
  rcases h : fs file with _ | (b | ds | _)
  · simp
  · simp only [Option.some.injEq, Content.binary.injEq]
    rcases he : e.execute c b with _ | ds
    · simp only [List.not_mem_nil, false_iff]
      rintro ⟨b', ds, rfl, h2, -⟩
      rw [← hx, he] at h2
      cases h2
    · simp only
      by_cases hp : e.pickles ds = true
      · rw [if_pos hp, verif_verified, write_same]
        constructor
        · rintro ⟨ds', h1, h2⟩
          simp only [Option.some.injEq, Content.data.injEq] at h1
          subst h1
          exact ⟨b, ds, rfl, (hx b).symm.trans he, hp, h2⟩
        · rintro ⟨b', ds', rfl, h2, -, h4⟩
          rw [← hx, he] at h2
          simp only [Option.some.injEq] at h2
          subst h2
          exact ⟨ds, rfl, h4⟩
      · rw [if_neg hp]
        simp only [List.not_mem_nil, false_iff]
        rintro ⟨b', ds', rfl, h2, h3, -⟩
        rw [← hx, he] at h2
        simp only [Option.some.injEq] at h2
        subst h2
        exact hp h3
  · simp
  · simp

/-- C70: with a specification, the tool ends without an exception exactly if "NF verified!" is printed; without one, it is never printed. -/
theorem C70_status {B D S : Type} (e : Engine B D S) (fs : Files B D) (c : Command) (u : Bool) (file : String) :
    (∀ s, (handle e fs c u file (some s)).ok = true ↔ Line.verified ∈ (handle e fs c u file (some s)).lines) ∧
    Line.verified ∉ (handle e fs c u file none).lines := by
  have hv : ∀ (fs : Files B D) p s, (verif e fs p (some s)).ok = true ↔ Line.verified ∈ (verif e fs p (some s)).lines := by
    intro fs p s
    rw [verif_ok, verif_verified]
  constructor
  · intro s
    unfold handle
    split
    · split
      · split
        · simp
        · split
          · exact hv _ _ _
          · simp
      · simp
    · exact hv _ _ _
  · unfold handle
    split
    · split
      · split
        · simp
        · split <;> simp [verif]
      · simp
    · simp [verif]

/-- The files after events. -/
def filesAfter {B D S : Type} (e : Engine B D S) (fs : Files B D) (evs : List (Event B S)) : Files B D := evs.foldl (Event.apply e) fs

namespace PipelineAux

variable {B D S : Type}

/-- Where data of states comes from. -/
def FromRun (e : Engine B D S) (fs0 : Files B D) (evs : List (Event B S)) (file : String) (ds : List D) : Prop :=
  ∃ evs1 c u spec evs2 b, evs = evs1 ++ .run c u file spec :: evs2 ∧ filesAfter e fs0 evs1 file = some (.binary b) ∧ e.execute c b = some ds

theorem fromRun_mono {e : Engine B D S} {fs0 : Files B D} {evs : List (Event B S)} {file : String} {ds : List D} (ev : Event B S) (h : FromRun e fs0 evs file ds) :
    FromRun e fs0 (evs ++ [ev]) file ds := by
  obtain ⟨evs1, c, u, spec, evs2, b, rfl, h2, h3⟩ := h
  exact ⟨evs1, c, u, spec, evs2 ++ [ev], b, by simp, h2, h3⟩

/-- What a run does to the files: nothing, or it writes the results of the binary to the cache, or it spoils the cache. -/
theorem handle_files (e : Engine B D S) (fs : Files B D) (c : Command) (u : Bool) (file : String) (spec : Option S) :
    (handle e fs c u file spec).files = fs ∨ (handle e fs c u file spec).files = fs.write (cachePath file) .other ∨
    ∃ b ds, fs file = some (.binary b) ∧ e.execute c b = some ds ∧ (handle e fs c u file spec).files = fs.write (cachePath file) (.data ds) := by
  unfold handle
  split
  · split
    · rename_i b hb
      split
      · exact .inl rfl
      · rename_i ds hds
        split
        · exact .inr (.inr ⟨b, ds, hb, hds, by rw [verif_files]⟩)
        · exact .inr (.inl rfl)
    · exact .inl rfl
  · exact .inl (by rw [verif_files])

/-- All data of states is that of an earlier run. -/
theorem data_from_run (e : Engine B D S) (fs0 : Files B D) (h0 : ∀ p ds, fs0 p ≠ some (.data ds)) (evs : List (Event B S)) :
    ∀ p ds, filesAfter e fs0 evs p = some (.data ds) → ∃ file, p = cachePath file ∧ FromRun e fs0 evs file ds := by
  induction evs using List.reverseRecOn with
  | nil => intro p ds h; exact absurd h (h0 p ds)
  | append_singleton evs ev ih =>
    intro p ds h
    have hstep : filesAfter e fs0 (evs ++ [ev]) = ev.apply e (filesAfter e fs0 evs) := by simp [filesAfter]
    rw [hstep] at h
    have old : filesAfter e fs0 evs p = some (.data ds) → ∃ file, p = cachePath file ∧ FromRun e fs0 (evs ++ [ev]) file ds := by
      intro h
      obtain ⟨file, h1, h2⟩ := ih p ds h
      exact ⟨file, h1, fromRun_mono ev h2⟩
    cases ev with
    | run c u file spec =>
      change (handle e (filesAfter e fs0 evs) c u file spec).files p = _ at h
      rcases handle_files e (filesAfter e fs0 evs) c u file spec with hf | hf | ⟨b, ds', h1, h2, hf⟩
      · rw [hf] at h; exact old h
      · rw [hf] at h
        by_cases hp : p = cachePath file
        · simp [Files.write, hp] at h
        · simp only [Files.write, if_neg hp] at h; exact old h
      · rw [hf] at h
        by_cases hp : p = cachePath file
        · simp only [Files.write, if_pos hp, Option.some.injEq, Content.data.injEq] at h
          subst h
          exact ⟨file, hp, evs, c, u, spec, [], b, rfl, h1, h2⟩
        · simp only [Files.write, if_neg hp] at h; exact old h
    | compile path b =>
      by_cases hp : p = path
      · simp [Event.apply, Files.write, hp] at h
      · simp only [Event.apply, Files.write, if_neg hp] at h; exact old h
    | overwrite path =>
      by_cases hp : p = path
      · simp [Event.apply, Files.write, hp] at h
      · simp only [Event.apply, Files.write, if_neg hp] at h; exact old h
    | delete path =>
      by_cases hp : p = path
      · simp [Event.apply, hp] at h
      · simp only [Event.apply, if_neg hp] at h; exact old h

end PipelineAux

/-- C70, as far as it is true with the option to use cached results: whatever happened to the files, provided only the tool writes states, "NF verified!" means that the specification was checked on all states of
some binary that was in the file when one of the two commands was run on it, now or earlier. What is missing: that it is the binary that is there now, and the same command; `C70_stale` and
`C70_other_command` show that this is false. -/
theorem C70_cached_partial {B D S : Type} (e : Engine B D S) (fs0 : Files B D) (h0 : ∀ p ds, fs0 p ≠ some (.data ds)) (evs : List (Event B S)) (c : Command) (file : String) (s : S)
    (hv : Line.verified ∈ (handle e (filesAfter e fs0 evs) c true file (some s)).lines) :
    ∃ b ds, e.checks s ds = true ∧ ((filesAfter e fs0 evs file = some (.binary b) ∧ e.execute c b = some ds) ∨
      ∃ evs1 c' u spec evs2, evs = evs1 ++ .run c' u file spec :: evs2 ∧ filesAfter e fs0 evs1 file = some (.binary b) ∧ e.execute c' b = some ds) := by
  by_cases hc : (filesAfter e fs0 evs (cachePath file)).isNone = true
  · have : handle e (filesAfter e fs0 evs) c true file (some s) = handle e (filesAfter e fs0 evs) c false file (some s) := by
      simp [handle, hc]
    rw [this, C70_current] at hv
    obtain ⟨b, ds, h1, h2, -, h4⟩ := hv
    exact ⟨b, ds, h4, .inl ⟨h1, by cases c <;> exact h2⟩⟩
  · have : handle e (filesAfter e fs0 evs) c true file (some s) = verif e (filesAfter e fs0 evs) (cachePath file) (some s) := by
      simp [handle, hc]
    rw [this, verif_verified] at hv
    obtain ⟨ds, h1, h2⟩ := hv
    obtain ⟨file', hp, evs1, c', u, spec, evs2, b, g1, g2, g3⟩ := data_from_run e fs0 h0 evs _ _ h1
    have := cachePath_inj hp
    subst this
    exact ⟨b, ds, h2, .inr ⟨evs1, c', u, spec, evs2, g1, g2, g3⟩⟩

/-- The claim about the option fails: for every two binaries of which the specification accepts the first only, compiling the first, running the tool, compiling the second and running the tool with the
option prints "NF verified!" in the end. -/
theorem C70_stale {B D S : Type} (e : Engine B D S) (fs0 : Files B D) (c : Command) (file : String) (s : S) (b1 b2 : B) (ds : List D)
    (h1 : e.execute c b1 = some ds) (hp : e.pickles ds = true) (hs : e.checks s ds = true) (h2 : ∀ ds', e.execute c b2 = some ds' → e.checks s ds' = false) :
    let fs := filesAfter e fs0 [.compile file b1, .run c false file (some s), .compile file b2]
    Line.verified ∈ (handle e fs c true file (some s)).lines ∧ Line.verified ∉ (handle e fs c false file (some s)).lines ∧ fs file = some (.binary b2) := by
  have hr : handle e (fs0.write file (.binary b1)) c false file (some s) = verif e ((fs0.write file (.binary b1)).write (cachePath file) (.data ds)) (cachePath file) (some s) := by
    simp [handle, write_same, h1, hp]
  have hfs : filesAfter e fs0 [.compile file b1, .run c false file (some s), .compile file b2] = ((fs0.write file (.binary b1)).write (cachePath file) (.data ds)).write file (.binary b2) := by
    simp only [filesAfter, List.foldl_cons, List.foldl_nil, Event.apply]
    rw [hr, verif_files]
  have hcache : (((fs0.write file (.binary b1)).write (cachePath file) (.data ds)).write file (.binary b2)) (cachePath file) = some (.data ds) := by
    simp [Files.write, (cachePath_ne file).symm]
  simp only [hfs]
  refine ⟨?_, ?_, write_same _ _ _⟩
  · have : handle e (((fs0.write file (.binary b1)).write (cachePath file) (.data ds)).write file (.binary b2)) c true file (some s) =
        verif e (((fs0.write file (.binary b1)).write (cachePath file) (.data ds)).write file (.binary b2)) (cachePath file) (some s) := by
      simp [handle, hcache]
    rw [this, verif_verified]
    exact ⟨ds, hcache, hs⟩
  · rw [C70_current]
    rintro ⟨b, ds', g1, g2, -, g4⟩
    rw [write_same] at g1
    simp only [Option.some.injEq, Content.binary.injEq] at g1
    subst g1
    rw [h2 ds' (by cases c <;> exact g2)] at g4
    cases g4

/-- Nor is it the same command: both commands use one file, so after `libnf` the command `fullstack` with the option prints "NF verified!" for the same binary, although executing it as a whole program raises
(as `execute_nf` does for every program, see C66). -/
theorem C70_other_command {B D S : Type} (e : Engine B D S) (fs0 : Files B D) (file : String) (s : S) (b : B) (ds : List D)
    (h1 : e.libnf b = some ds) (hp : e.pickles ds = true) (hs : e.checks s ds = true) (h2 : e.nf b = none) :
    let fs := filesAfter e fs0 [.compile file b, .run .libnf false file (some s)]
    Line.verified ∈ (handle e fs .fullstack true file (some s)).lines ∧ (handle e fs .fullstack false file (some s)).ok = false := by
  have hr : handle e (fs0.write file (.binary b)) .libnf false file (some s) = verif e ((fs0.write file (.binary b)).write (cachePath file) (.data ds)) (cachePath file) (some s) := by
    simp [handle, write_same, Engine.execute, h1, hp]
  have hfs : filesAfter e fs0 [.compile file b, .run .libnf false file (some s)] = (fs0.write file (.binary b)).write (cachePath file) (.data ds) := by
    simp only [filesAfter, List.foldl_cons, List.foldl_nil, Event.apply]
    rw [hr, verif_files]
  simp only [hfs]
  constructor
  · have : handle e ((fs0.write file (.binary b)).write (cachePath file) (.data ds)) .fullstack true file (some s) =
        verif e ((fs0.write file (.binary b)).write (cachePath file) (.data ds)) (cachePath file) (some s) := by
      simp [handle, write_same]
    rw [this, verif_verified]
    exact ⟨ds, write_same _ _ _, hs⟩
  · have : ((fs0.write file (.binary b)).write (cachePath file) (.data ds)) file = some (.binary b) := by
      simp [Files.write, cachePath_ne file]
    simp [handle, this, Engine.execute, h2]

/-- The hypotheses of `C70_stale` and `C70_other_command` can be met: binaries that are verified if they are `true`. -/
example : ∃ (e : Engine Bool Bool Unit) (ds : List Bool), e.execute .libnf true = some ds ∧ e.libnf true = some ds ∧ e.pickles ds = true ∧ e.checks () ds = true ∧ e.nf true = none ∧
    ∀ ds', e.execute .libnf false = some ds' → e.checks () ds' = false :=
  ⟨⟨fun b => some [b], fun _ => none, fun _ => true, fun _ ds => ds.all id⟩, [true], rfl, rfl, rfl, rfl, rfl, by
    intro ds' h
    simp only [Engine.execute, Option.some.injEq] at h
    subst h
    rfl⟩

/-- The hypotheses of `C70_current` and `C70_cached_partial` can be met. -/
example : ∃ (e : Engine Bool Bool Unit) (fs0 : Files Bool Bool) (evs : List (Event Bool Unit)), (∀ p ds, fs0 p ≠ some (.data ds)) ∧
    Line.verified ∈ (handle e (filesAfter e fs0 evs) .libnf false "nf" (some ())).lines ∧ Line.verified ∈ (handle e (filesAfter e fs0 evs) .libnf true "nf" (some ())).lines := by
  refine ⟨⟨fun b => some [b], fun _ => none, fun _ => true, fun _ ds => ds.all id⟩, fun _ => none, [.compile "nf" true], by simp, ?_, ?_⟩
  · rw [C70_current]
    exact ⟨true, [true], rfl, rfl, rfl, rfl⟩
  · have : handle (S := Unit) ⟨fun b => some [b], fun _ => none, fun _ => true, fun _ ds => ds.all id⟩
        (filesAfter (S := Unit) ⟨fun b => some [b], fun _ => none, fun _ => true, fun _ ds => ds.all id⟩ (fun _ => none) [.compile "nf" true]) .libnf true "nf" (some ()) =
        handle ⟨fun b => some [b], fun _ => none, fun _ => true, fun _ ds => ds.all id⟩
        (filesAfter (S := Unit) ⟨fun b => some [b], fun _ => none, fun _ => true, fun _ ds => ds.all id⟩ (fun _ => none) [.compile "nf" true]) .libnf false "nf" (some ()) := by
      simp [handle, filesAfter, Event.apply, Files.write, cachePath]
    rw [this, C70_current]
    exact ⟨true, [true], rfl, rfl, rfl, rfl⟩

/-! ### Initialization -/

/-- C70: the states from which packets are handled cover exactly the executions of `nf_init` that return a value other than 0, whatever the states are. -/
theorem C70_inited {A : Type} (results : List (InitState A)) (ρ : A) :
    (∃ s ∈ initedStates results, s.C ρ) ↔ ∃ s ∈ results, s.C ρ ∧ s.ret ρ ≠ 0 := by
  classical
  unfold initedStates
  constructor
  · rintro ⟨s, hs, h⟩
    obtain ⟨hs, -⟩ := List.mem_filter.1 hs
    obtain ⟨t, ht, rfl⟩ := List.mem_map.1 hs
    exact ⟨t, ht, h⟩
  · rintro ⟨s, hs, h⟩
    exact ⟨_, List.mem_filter.2 ⟨List.mem_map.2 ⟨s, hs, rfl⟩, by simpa using ⟨ρ, h⟩⟩, h⟩

example : ∃ s : InitState (BitVec 8), s.C 1 ∧ s.ret 1 ≠ 0 := ⟨⟨fun _ => True, id⟩, trivial, by decide⟩

/-- C70, the limit of what "NF verified!" says: if `nf_init` returns false in all executions, no states are left, the loop stops at once without handling a packet, and the search over no states succeeds for every
specification. -/
theorem C70_no_states {A A' O : Type} [DecidableEq O] (results : List (InitState A)) (hf : ∀ s ∈ results, ∀ ρ, s.C ρ → s.ret ρ = 0) (fuel n : Nat) (guess : Verif.Tool.GhostMap.Guess) (objs : List Nat)
    (explore : Verif.Tool.GhostMap.State → Option (List Verif.Tool.GhostMap.State)) (prev : Nat → Option (List Nat)) :
    initedStates results = [] ∧ Verif.Tool.GhostMap.fixpointLoop fuel guess objs explore (n + 1) [] prev = some ([], [], prev) ∧
    ∀ spec : Verif.Tool.GhostMap.State → Verif.Tool.Symbex.State A' O, Verif.Tool.Symbex.search fuel (([] : List Verif.Tool.GhostMap.State).map spec) (n + 1) [] = some (.success [] []) := by
  classical
  refine ⟨?_, ?_, ?_⟩
  · unfold initedStates
    rw [List.filter_eq_nil_iff]
    intro s hs
    obtain ⟨t, ht, rfl⟩ := List.mem_map.1 hs
    simp only [decide_eq_true_eq, not_exists, not_and, ne_eq, not_not]
    intro ρ h
    exact hf t ht ρ h
  · simp [Verif.Tool.GhostMap.fixpointLoop, Verif.Tool.GhostMap.exploreAll, Verif.Tool.GhostMap.allSome, Verif.Tool.GhostMap.infer]
  · intro spec
    simp [Verif.Tool.Symbex.search, Verif.Tool.Symbex.attempt]

example : ∃ s : InitState Nat, (∀ ρ, s.C ρ → s.ret ρ = 0) ∧ ∃ ρ, s.C ρ := ⟨⟨fun _ => True, fun _ => 0⟩, fun _ _ => rfl, 0, trivial⟩

/-! ### Names -/

namespace PipelineAux

theorem split_last {x : Char} : ∀ {a a' d d' : List Char}, x ∉ d → x ∉ d' → a ++ x :: d = a' ++ x :: d' → a = a' ∧ d = d' := by
  intro a a' d d' hd hd' h
  rcases List.append_eq_append_iff.1 h with ⟨l, h1, h2⟩ | ⟨l, h1, h2⟩
  · rcases l with _ | ⟨y, l⟩
    · simp only [List.append_nil] at h1
      simp only [List.nil_append, List.cons.injEq, true_and] at h2
      exact ⟨h1.symm, h2⟩
    · simp only [List.cons_append, List.cons.injEq] at h2
      exact absurd (h2.2 ▸ List.mem_append_right l (List.mem_cons_self ..)) hd
  · rcases l with _ | ⟨y, l⟩
    · simp only [List.append_nil] at h1
      simp only [List.nil_append, List.cons.injEq, true_and] at h2
      exact ⟨h1, h2.symm⟩
    · simp only [List.cons_append, List.cons.injEq] at h2
      exact absurd (h2.2 ▸ List.mem_append_right l (List.mem_cons_self ..)) hd'

theorem nat_no_underscore (n : Nat) : '_' ∉ (toString n).toList := by
  rw [show toString n = n.repr from rfl, Nat.toList_repr]
  exact Nat.underscore_not_in_toDigits

theorem int_no_underscore (i : Int) : '_' ∉ (toString i).toList := by
  rcases i with n | n
  · exact nat_no_underscore n
  · rw [show toString (Int.negSucc n) = "-" ++ (n + 1).repr from rfl, String.toList_append, Nat.toList_repr]
    intro h
    rcases List.mem_append.1 h with h | h
    · simp at h
    · exact Nat.underscore_not_in_toDigits h

theorem nat_inj {a b : Nat} (h : (toString a).toList = (toString b).toList) : a = b := by
  rw [show toString a = a.repr from rfl, show toString b = b.repr from rfl, Nat.toList_repr, Nat.toList_repr] at h
  have := congrArg (fun l => Nat.ofDigitChars 10 l 0) h
  simpa using this

theorem symbolName_list (base : String) (n : Nat) (size : Int) :
    (symbolName base n size).toList = (base.toList ++ '_' :: (toString n).toList) ++ '_' :: (toString size).toList := by
  simp [symbolName, String.toList_append]

/-- The number of a symbol can be read from its name. -/
theorem symbolName_number {base base' : String} {n n' : Nat} {size size' : Int} (h : symbolName base n size = symbolName base' n' size') : n = n' := by
  have h1 := congrArg String.toList h
  rw [symbolName_list, symbolName_list] at h1
  obtain ⟨h2, -⟩ := split_last (int_no_underscore _) (int_no_underscore _) h1
  exact nat_inj (split_last (nat_no_underscore _) (nat_no_underscore _) h2).2

theorem mem_symbolNames {start : Nat} {made : List (String × Int)} {x : String} (h : x ∈ symbolNames start made) :
    ∃ i base size, made[i]? = some (base, size) ∧ x = symbolName base (start + i) size := by
  induction made generalizing start with
  | nil => cases h
  | cons p made ih =>
    obtain ⟨base, size⟩ := p
    rcases List.mem_cons.1 h with h | h
    · exact ⟨0, base, size, rfl, h⟩
    · obtain ⟨i, b, s, h1, h2⟩ := ih h
      exact ⟨i + 1, b, s, h1, by rw [h2]; congr 1; omega⟩

theorem symbolNames_get {start : Nat} {made : List (String × Int)} {i : Nat} {base : String} {size : Int} (h : made[i]? = some (base, size)) :
    symbolName base (start + i) size ∈ symbolNames start made := by
  induction made generalizing start i with
  | nil => simp at h
  | cons p made ih =>
    obtain ⟨b, s⟩ := p
    cases i with
    | zero =>
      simp only [List.getElem?_cons_zero, Option.some.injEq, Prod.mk.injEq] at h
      obtain ⟨rfl, rfl⟩ := h
      exact List.mem_cons_self ..
    | succ i =>
      simp only [List.getElem?_cons_succ] at h
      have := ih (start := start + 1) h
      rw [show start + 1 + i = start + (i + 1) by omega] at this
      exact List.mem_cons_of_mem _ this

theorem symbolNames_nodup (start : Nat) (made : List (String × Int)) : (symbolNames start made).Nodup := by
  induction made generalizing start with
  | nil => exact List.nodup_nil
  | cons p made ih =>
    refine List.nodup_cons.2 ⟨fun h => ?_, ih _⟩
    obtain ⟨i, b, s, -, h2⟩ := mem_symbolNames h
    have := symbolName_number h2
    omega

theorem symbolName_underscore (base : String) (n : Nat) (size : Int) : '_' ∈ (symbolName base n size).toList := by
  rw [symbolName_list]
  exact List.mem_append_right _ (List.mem_cons_self ..)

end PipelineAux

/-- C70, for executions that make at most a million symbols: no symbol that the verification makes is one of the execution or made twice, and none is one of those with a fixed name (ghostmaps.py:97-99,
725-746, 799-800). What is missing: executions that make more symbols; `C70_names_wrong` shows that the claim is false for them. -/
theorem C70_names_partial (made made' : List (String × Int)) (h : made.length ≤ 1000000) :
    (executionNames made ++ verificationNames made').Nodup ∧
    ∀ x ∈ executionNames made ++ verificationNames made', x ∉ ["KEY", "VALUE", "PRESENT", "FAKE", "K", "V"] := by
  constructor
  · refine List.nodup_append.2 ⟨symbolNames_nodup _ _, symbolNames_nodup _ _, ?_⟩
    rintro x hx y hy rfl
    obtain ⟨i, b, s, h1, h2⟩ := mem_symbolNames hx
    obtain ⟨j, b', s', -, h4⟩ := mem_symbolNames hy
    have hi : i < made.length := (List.getElem?_eq_some_iff.1 h1).1
    have := symbolName_number (h2.symm.trans h4)
    simp only [verifyStart] at this
    omega
  · intro x hx hm
    have hu : '_' ∈ x.toList := by
      rcases List.mem_append.1 hx with hx | hx
      · obtain ⟨i, b, s, -, rfl⟩ := mem_symbolNames hx
        exact symbolName_underscore _ _ _
      · obtain ⟨i, b, s, -, rfl⟩ := mem_symbolNames hx
        exact symbolName_underscore _ _ _
    simp only [List.mem_cons, List.not_mem_nil, or_false] at hm
    rcases hm with rfl | rfl | rfl | rfl | rfl | rfl <;> revert hu <;> decide

example : executionNames [("devices_count", 16), ("map_0_p", -1)] ++ verificationNames [("exists_value", 16)] =
    ["devices_count_0_16", "map_0_p_1_-1", "exists_value_1000000_16"] := by decide +kernel

/-- The claim fails for all longer executions: if the symbol after the first million has the name and size of the first that the verification makes, such as a value of the same map, they are the same symbol. -/
theorem C70_names_wrong (made more more' : List (String × Int)) (h : made.length = 1000000) (base : String) (size : Int) :
    ¬(executionNames (made ++ (base, size) :: more) ++ verificationNames ((base, size) :: more')).Nodup := by
  intro hn
  have h1 : symbolName base 1000000 size ∈ executionNames (made ++ (base, size) :: more) := by
    have := symbolNames_get (start := 0) (made := made ++ (base, size) :: more) (i := 1000000) (base := base) (size := size) (by
      rw [List.getElem?_append_right (by omega), h]
      simp)
    simpa [executionNames] using this
  have h2 : symbolName base 1000000 size ∈ verificationNames ((base, size) :: more') := List.mem_cons_self ..
  exact (List.nodup_append.1 hn).2.2 _ h1 _ h2 rfl

example : (List.replicate 1000000 ("map_0_v", (64 : Int))).length = 1000000 := List.length_replicate ..

/-! ### The whole -/

open Verif.Tool.GhostMap in
/-- C70, where C27 is proved: if the loop over packets ends with the states `R` and the search for the specification's objects succeeds on them, then there is one choice of distinct candidates such that, after any
number of packets, everything that the specification implies of the maps after a packet holds of them. What is missing is what is missing in `C27_histories_partial` (and in the execution of single packets, which
is the hypothesis `Suitable`): several initial states, invariants that read other maps, and maps that initialization has put items into, where the property is false.
The specification branches on functions of the world and the assignment; its candidates are the same in all states (`Uniform`). -/
theorem C70_verified_partial {Step : Maps → Maps → Prop} {objs changing : List Nat} {fuel : Nat} (hn : objs.Nodup) {explore : State → Option (List State)} {A0 : State} {W0 : Nat → Contents} {ρ0 : Env}
    {n0 : Nat} (hn0 : n0 ≤ A0.next) (hd : Describes A0 W0 ρ0) (hb : ∀ o ∈ changing, (A0.maps o).blank) {ok : Nat → Prop} (hv : ∀ o ∈ changing, (∀ p ∈ (A0.maps o).invs, Vacuous p) ∨ ok o)
    (hs : ∀ A R, explore A = some R → n0 ≤ A.next → (∃ W ρ, Agree n0 ρ0 ρ ∧ Describes A W ρ) → (∀ o ∈ changing, (A.maps o).blank) →
      Suitable Step n0 ρ0 objs changing (A0.maps' W0 ρ0) A R ∧ ∀ o ∈ changing, ok o → AlwaysPresent R o)
    {n : Nat} {R0 : List State} {ancs0 ancs R : List State} {prev lens : Nat → Option (List Nat)} (he : explore A0 = some R0)
    (hi : infer fuel noGuess objs [A0] R0 (fun _ => none) = some (.next ancs0 prev)) (hl : fixpointLoop fuel noGuess objs explore n ancs0 prev = some (ancs, R, lens))
    {O : Type} [DecidableEq O] (spec : State → Verif.Tool.Symbex.Prog ((Nat → Contents) × Env) O) {L : Nat → List O} {D : Nat} (hu : ∀ r ∈ R, Uniform L D (spec r) 0) (hsat : ∀ r ∈ R, ∃ W ρ, Describes r W ρ)
    {sfuel tries : Nat} {ch : List (List O)} {results : List (List (Verif.Tool.Symbex.Branches ((Nat → Contents) × Env)))}
    (hf : Verif.Tool.Symbex.search sfuel (R.map fun r => ⟨fun x => Describes r x.1 x.2, spec r⟩) tries [] = some (.success ch results))
    {P : (Nat → Option O) → Maps → Prop} (hP : ∀ a, ∀ r ∈ R, ∀ W ρ, Describes r W ρ → Succeeds (W, ρ) a (spec r) 0 → P a (r.maps' W ρ)) :
    ∃ a : Nat → Option O, (∀ i x, a i = some x → x ∈ L i) ∧ (∀ i j x, a i = some x → a j = some x → i = j) ∧
      ∀ M M', Relation.ReflTransGen Step (A0.maps' W0 ρ0) M → Step M M' → P a M' := by
  obtain ⟨A, -, hh⟩ := C27_histories_partial hn hn0 hd hb hv hs he hi hl
  obtain ⟨a, h1, h2, h3⟩ := C38_found (L := L) (D := D) (by
    intro s hs
    obtain ⟨r, hr, rfl⟩ := List.mem_map.1 hs
    exact hu r hr) (by
    intro s hs
    obtain ⟨r, hr, rfl⟩ := List.mem_map.1 hs
    obtain ⟨W, ρ, h⟩ := hsat r hr
    exact ⟨(W, ρ), h⟩) hf
  refine ⟨a, h1, h2, fun M M' hM hstep => ?_⟩
  obtain ⟨W, ρ, -, -, -, g⟩ := hh M hM
  obtain ⟨r, hr, W1, ρ1, k1, rfl⟩ := g M' hstep
  exact hP a r hr W1 ρ1 k1 (h3 _ (List.mem_map.2 ⟨r, hr, rfl⟩) (W1, ρ1) k1)

namespace PipelineExample

open Verif.Tool.GhostMap InferExample

open Classical in
/-- A specification: after a packet, key 0 has the value 1. -/
noncomputable def spec (r : State) : Verif.Tool.Symbex.Prog ((Nat → Contents) × Env) Nat :=
  .branch (fun x => decide (r.maps' x.1 x.2 0 0 = some 1)) fun b => if b then .done else .fail false

theorem spec_uniform (r : State) : Uniform (fun _ => []) 0 (spec r) 0 := by
  intro b
  cases b <;> trivial

theorem spec_means (r : State) (W : Nat → Contents) (ρ : Env) (a : Nat → Option Nat) : Succeeds (W, ρ) a (spec r) 0 ↔ r.maps' W ρ 0 0 = some 1 := by
  unfold spec
  simp only [Succeeds]
  by_cases h : r.maps' W ρ 0 0 = some 1
  · simp [h, Succeeds]
  · simp [h, Succeeds]

theorem after_second_one (W : Nat → Contents) (ρ : Env) : (after second).maps' W ρ 0 0 = some 1 := by
  have h1 : (after second).contentAt W ρ 0 none = Function.update (W 0) 0 (1, true) := by
    unfold State.contentAt
    rw [show skip ((after second).maps 0) none = 0 from rfl, List.drop_zero]
    show content ρ (W 0) (⟨[item], _, _⟩ :: (second.maps 0).layers) = _
    rw [second_blank.2]
    simp only [content]
    rw [override_single]
    rfl
  unfold State.maps'
  rw [h1]
  simp

theorem after_second_sat : ∃ W ρ, Describes (after second) W ρ := by
  obtain ⟨f, h1, h2⟩ := stops
  have hd := start_describes world env rfl (fun _ _ => rfl) (fun _ => rfl)
  obtain ⟨A, -, hh⟩ := C27_histories_partial (Step := Step) (changing := [0]) (n0 := 0) (ok := fun _ => False) (by simp) (Nat.zero_le _) hd (by simpa using start_blank) (by simp [start, Vacuous, IB.sem])
    (fun A R he _ hd _ => ⟨explore_suitable A R he hd, by simp⟩) (by simp [explore]) h1 h2
  obtain ⟨-, -, -, -, -, g⟩ := hh _ Relation.ReflTransGen.refl
  obtain ⟨r, hr, W1, ρ1, k, -⟩ := g ((start.maps' world env).put 0 0 (some 1)) ⟨rfl, by
    have : {k | (start.maps' world env 0 k).isSome = true} = ∅ := by
      ext k; simp [State.maps', State.contentAt, start, content, world]
    rw [this]
    simp⟩
  simp only [List.mem_singleton] at hr
  subst hr
  exact ⟨W1, ρ1, k⟩

end PipelineExample

open Verif.Tool.GhostMap InferExample PipelineExample in
/-- The hypotheses of `C70_verified_partial` can be met, with the loop of the example of `C27_histories_partial`: every packet sets key 0 to 1, and this is what the specification says. -/
example : ∃ f, (∀ A R, explore A = some R → 0 ≤ A.next → (∃ W ρ, Agree 0 env ρ ∧ Describes A W ρ) → (∀ o ∈ [0], (A.maps o).blank) →
      Suitable Step 0 env [0] [0] (start.maps' world env) A R ∧ ∀ o ∈ [0], False → AlwaysPresent R o) ∧ Describes start world env ∧
    (∀ o ∈ [0], (∀ p ∈ (start.maps o).invs, Vacuous p) ∨ False) ∧ explore start = some [after start] ∧
    infer 1 noGuess [0] [start] [after start] (fun _ => none) = some (.next [second] (lensOf [(0, f)])) ∧
    fixpointLoop 1 noGuess [0] explore 1 [second] (lensOf [(0, f)]) = some ([second], [after second], lensOf [(0, f)]) ∧
    (∀ r ∈ [after second], Uniform (fun _ => ([] : List Nat)) 0 (spec r) 0) ∧ (∀ r ∈ [after second], ∃ W ρ, Describes r W ρ) ∧
    (∃ sfuel tries ch results, Verif.Tool.Symbex.search sfuel ([after second].map fun r => ⟨fun x => Describes r x.1 x.2, spec r⟩) tries [] = some (.success ch results)) ∧
    (∀ a, ∀ r ∈ [after second], ∀ W ρ, Describes r W ρ → Succeeds (W, ρ) a (spec r) 0 → r.maps' W ρ 0 0 = some 1) := by
  obtain ⟨f, h1, h2⟩ := stops
  refine ⟨f, fun A R he _ hd _ => ⟨explore_suitable A R he hd, by simp⟩, start_describes world env rfl (fun _ _ => rfl) (fun _ => rfl), by simp [start, Vacuous, IB.sem], by simp [explore], h1, h2,
    fun r _ => spec_uniform r, ?_, ?_, fun a r _ W ρ _ h => (spec_means r W ρ a).1 h⟩
  · intro r hr
    simp only [List.mem_singleton] at hr
    subst hr
    exact after_second_sat
  · refine (C38_search_partial (L := fun _ => []) (D := 0) ?_ ?_ ?_ (by simp) (by simp)).2 ⟨fun _ => 0, by simp, by simp, ?_⟩
    · intro s hs
      simp only [List.map_cons, List.map_nil, List.mem_singleton] at hs
      subst hs
      exact spec_uniform _
    · intro s hs
      simp only [List.map_cons, List.map_nil, List.mem_singleton] at hs
      subst hs
      obtain ⟨W, ρ, h⟩ := after_second_sat
      exact ⟨(W, ρ), h⟩
    · intro s hs
      simp only [List.map_cons, List.map_nil, List.mem_singleton] at hs
      subst hs
      intro b
      cases b
      · rfl
      · trivial
    · intro s hs x hx
      simp only [List.map_cons, List.map_nil, List.mem_singleton] at hs
      subst hs
      exact (spec_means _ _ _ _).2 (after_second_one x.1 x.2)

end Verif.Props
