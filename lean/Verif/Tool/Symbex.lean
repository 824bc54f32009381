/-
Model of the symbolic execution of specifications: /repo/tool/klint/verif/symbex.py,
/repo/tool/klint/verif/value_proxy.py:80-105 and `choose`, /repo/tool/klint/verif/spec_prefix.py:196-211.

A specification, run on one state, is a decision tree: it ends, raises an exception, asks for the
truth value of a condition (`ValueProxy.__bool__`), or asks for one of several objects (`choose`).
Conditions are predicates on the assignments `A` of the state's symbols; the state's constraints are
a predicate `C`, and the solver answers exactly.
-/
import Mathlib.Data.List.Basic

set_option autoImplicit false

namespace Verif.Tool.Symbex

/-- A specification's run. `fail builtin`: an exception, of a class from `builtins` or not. -/
inductive Prog (A O : Type) where
  | done
  | fail (builtin : Bool)
  | branch (f : A → Bool) (k : Bool → Prog A O)
  | choose (cands : List O) (k : O → Prog A O)

variable {A O : Type}

/-- `branches`: formulas with their value on the path. -/
abbrev Branches (A : Type) := List ((A → Bool) × Bool)

/-- The assignment follows the path. -/
def follows (ρ : A) (b : Branches A) : Prop := ∀ x ∈ b, x.1 ρ = x.2

open Classical in
/-- value_proxy.py:89-90: is `f` evaluating to `v` possible on this path? -/
noncomputable def canBe (C : A → Prop) (path : Branches A) (f : A → Bool) (v : Bool) : Bool :=
  decide (∃ ρ, C ρ ∧ follows ρ path ∧ f ρ = v)

/-- The result of one run: success with the branches and choices, or an exception with the choice
index and the choices at that point. -/
inductive Res (A O : Type) where
  | ok (branches : Branches A) (choices : List (List O))
  | err (builtin : Bool) (choiceIndex : Nat) (choices : List (List O))

variable [DecidableEq O]

/-- spec_prefix.py:205-207: drops the leading candidates used by an earlier choice. -/
def dedupe (prev : List (List O)) (l : List O) : List O :=
  l.dropWhile fun o => prev.any fun l' => l'.head? == some o

/-- symbex.py:19-27 `_symbex_one`: the run of a specification, with the branch index `bi` and the
choice index `ci`. `__bool__`: value_proxy.py:80-105 (an unsatisfiable path makes the solver raise
its own exception); the added constraint is the branch itself. `choose`: spec_prefix.py:196-211; the
assertion of line 203 is about a list of booleans and always holds; line 205 indexes an empty list if
all candidates are dropped. -/
noncomputable def run (C : A → Prop) : Prog A O → Nat → Branches A → Nat → List (List O) → Res A O
  | .done, _, br, _, ch => .ok br ch
  | .fail b, _, _, ci, ch => .err b ci ch
  | .branch f k, bi, br, ci, ch =>
    match canBe C (br.take bi) f true, canBe C (br.take bi) f false with
    | true, false => run C (k true) bi br ci ch
    | false, true => run C (k false) bi br ci ch
    | false, false => .err false ci ch
    | true, true =>
      match br[bi]? with
      | some x => run C (k x.2) (bi + 1) br ci ch
      | none => run C (k true) (bi + 1) (br ++ [(f, true)]) ci ch
  | .choose cs k, bi, br, ci, ch =>
    if cs.isEmpty then .err true ci ch
    else
      match dedupe (ch.take ci) (ch[ci]?.getD cs) with
      | [] => .err true ci ch
      | o :: os => run C (k o) bi br (ci + 1) (ch.take ci ++ (o :: os) :: ch.drop (ci + 1))

/-- symbex.py:42: prunes the branches that were fully explored. -/
def prune (br : Branches A) : Branches A := (br.reverse.dropWhile fun x => !x.2).reverse

/-- The result of exploring one state, or of one attempt with given choices. -/
inductive Out (A O R : Type) where
  | ok (results : R) (choices : List (List O))
  | err (builtin : Bool) (choiceIndex : Nat) (choices : List (List O))

/-- symbex.py:37-48: explores the paths of one state; the natural number bounds the number of runs
(none: not finished). -/
noncomputable def explore (C : A → Prop) (root : Prog A O) : Nat → Branches A → List (List O) → List (Branches A) →
    Option (Out A O (List (Branches A)))
  | 0, _, _, _ => none
  | n + 1, br, ch, acc =>
    match run C root 0 br 0 ch with
    | .err b ci ch => some (.err b ci ch)
    | .ok br ch =>
      match (prune br).getLast? with
      | none => some (.ok (acc ++ [br]) ch)
      | some x => explore C root n ((prune br).dropLast ++ [(x.1, false)]) ch (acc ++ [br])

/-- A state and the specification's run on it. -/
structure State (A O : Type) where
  C : A → Prop
  root : Prog A O

/-- symbex.py:33-48: one attempt over all states. -/
noncomputable def attempt (fuel : Nat) : List (State A O) → List (List O) → List (List (Branches A)) →
    Option (Out A O (List (List (Branches A))))
  | [], ch, acc => some (.ok acc ch)
  | s :: ss, ch, acc =>
    match explore s.C s.root fuel [] ch [] with
    | none => none
    | some (.err b ci ch) => some (.err b ci ch)
    | some (.ok paths ch) => attempt fuel ss ch (acc ++ [paths])

/-- symbex.py:57-62: the next choices to try; none if all were explored. -/
def nextChoices (ch : List (List O)) : Option (List (List O)) :=
  match ch.reverse.dropWhile fun l => l.length == 1 with
  | [] => none
  | l :: rest => some (l.tail :: rest).reverse

/-- How the search ends: with the choices and paths; with an exception that is passed on because it
is a built-in one; or with all choices explored. -/
inductive Final (A O : Type) where
  | success (choices : List (List O)) (results : List (List (Branches A)))
  | raised
  | exhausted

/-- symbex.py:29-62 `_symbex`. `n` bounds the attempts, `fuel` the runs of each state. -/
noncomputable def search (fuel : Nat) (states : List (State A O)) : Nat → List (List O) → Option (Final A O)
  | 0, _ => none
  | n + 1, ch =>
    match attempt fuel states ch [] with
    | none => none
    | some (.ok results ch) => some (.success ch results)
    | some (.err true _ _) => some .raised
    | some (.err false _ ch) =>
      match nextChoices ch with
      | none => some .exhausted
      | some ch => search fuel states n ch

end Verif.Tool.Symbex
