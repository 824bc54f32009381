/-
Model of state forking, triage, merging and exploration:
/repo/tool/kalm/utils.py (fork_guarded), /repo/tool/kalm/solver.py (merge),
/repo/tool/kalm/merging.py, /repo/tool/kalm/plugins/path.py (merge) and
/repo/tool/kalm/memory/{memory,registers}.py (_merge_values).

Conventions: `A` is the type of assignments to all symbols. A constraint or other
Boolean expression is a predicate on assignments; where Python compares objects with
`is`, the expression carries the identity of the object (`Con.id`), and equal
identities mean the same expression.
-/
import Mathlib.Data.Nat.Log
import Mathlib.Data.List.Basic
import Mathlib.Data.List.Sort

set_option autoImplicit false

namespace Verif.Tool.Merging

/-- A constraint: an object identity and its meaning. -/
structure Con (A : Type) where
  id : Nat
  holds : A → Bool

/-- solver.py:51-59: how far all constraint lists agree, at most `fuel` further. -/
def divergence {A : Type} (self : List (Con A)) (others : List (List (Con A))) : Nat → Nat → Nat
  | 0, i => i
  | fuel + 1, i =>
    if others.all (fun o => (self[i]?.map Con.id) == (o[i]?.map Con.id)) then divergence self others fuel (i + 1) else i

/-- The minimum of solver.py:50. -/
def minLength {α : Type} (self : List α) (others : List (List α)) : Nat :=
  others.foldl (fun m o => min m o.length) self.length

/-- solver.py:47-64 `KalmSolver.merge`: the merged constraints. -/
def mergeSolvers {A : Type} (self : List (Con A)) (others : List (List (Con A))) (conds : List (A → Bool)) : List (A → Bool) :=
  let d := divergence self others (minLength self others) 0
  (self.take d).map Con.holds ++
  (((self :: others).zip conds).flatMap fun sc => (sc.1.drop d).map fun c a => !sc.2 a || c.holds a) ++
  [fun a => conds.any fun c => c a]

/-- merging.py:73: the width of the flag; `math.log2` is taken as exact. -/
def flagBits (n : Nat) : Nat := Nat.clog 2 n

/-- merging.py:73-78: the conditions, on assignments extended with the value of the fresh flag. -/
def mergeConds (V : Type) (n : Nat) : List (V × Nat → Bool) := (List.range n).map fun i va => va.2 == i

/-- An expression that does not mention the flag, on the extended assignments. -/
def lift {V : Type} (c : Con V) : Con (V × Nat) := ⟨c.id, fun va => c.holds va.1⟩

/-- merging.py:59-99 `merge_states`, the solver part; none if there is nothing to merge. -/
def mergeStates {V : Type} (states : List (List (Con V))) : Option (List (V × Nat → Bool)) :=
  match states with
  | s :: t :: ts => some (mergeSolvers (s.map lift) ((t :: ts).map (·.map lift)) (mergeConds V (ts.length + 2)))
  | _ => none

/-- claripy.ite_cases: the first case whose condition holds. -/
def iteCases {A T : Type} (cases : List ((A → Bool) × (A → T))) (default : A → T) (a : A) : T :=
  match cases.find? (fun c => c.1 a) with
  | some c => c.2 a
  | none => default a

/-- kalm/memory/memory.py:21-22, registers.py:20-21 `_merge_values`. -/
def mergeValues {A T : Type} (values : List ((A → T) × (A → Bool))) (default : A → T) : A → T :=
  match values with
  | [] => default
  | v :: vs => iteCases (vs.map fun x => (x.2, x.1)) v.1

/-- path.py:61, one recorded call: object identity, contents, condition. -/
structure Segment (A T : Type) where
  id : Nat
  what : T
  cond : A → Bool

/-- path.py:40-49. -/
def segDivergence {A T : Type} (self : List (Segment A T)) (others : List (List (Segment A T))) : Nat → Nat → Nat
  | 0, i => i
  | fuel + 1, i =>
    if others.all (fun o => (self[i]?.map Segment.id) == (o[i]?.map Segment.id)) then segDivergence self others fuel (i + 1) else i

/-- path.py:39-58 `PathPlugin.merge`; identities of the new tuples are not needed. -/
def mergePaths {A T : Type} (self : List (Segment A T)) (others : List (List (Segment A T))) (conds : List (A → Bool)) : List (T × (A → Bool)) :=
  let d := segDivergence self others (minLength self others) 0
  (self.take d).map (fun s => (s.what, s.cond)) ++
  ((self :: others).zip conds).flatMap fun sc => (sc.1.drop d).map fun s => (s.what, fun a => s.cond a && sc.2 a)

/-! ### Triage -/

/-- The first pile whose first element is accepted gets the element; otherwise a new pile. The
common shape of merging.py:17-24 and of ghostmaps.py:545-555 `merge_triage`. -/
def place {S : Type} (ok : S → S → Bool) : List (List S) → S → List (List S)
  | [], s => [[s]]
  | pile :: piles, s =>
    match pile with
    | [] => [] :: place ok piles s
    | c :: _ => if ok c s then (pile ++ [s]) :: piles else pile :: place ok piles s

/-- merging.py:17-24 with `ok` comparing call stacks; ghostmaps.py:545-555 with `ok` = can_merge. -/
def triageBy {S : Type} (ok : S → S → Bool) : List S → List (List S)
  | [] => []
  | s :: ss => ss.foldl (place ok) [[s]]

/-- merging.py:31-35: groups by return value, in order of first occurrence. -/
def groupBy {S R : Type} [DecidableEq R] (ret : S → R) (pile : List S) : List (List S) :=
  let keys := (pile.map ret).eraseDups
  keys.map fun r => pile.filter fun s => ret s == r

/-- merging.py:15-55 `triage_for_merge`; of the plugins only the ghost maps define
`merge_triage` (`canMerge` is their `can_merge`); a pile of one is left alone. -/
def triageForMerge {S K R : Type} [DecidableEq K] [DecidableEq R] (stack : S → K) (ret : Option (S → R)) (canMerge : S → S → Bool)
    (states : List S) : List (List S) :=
  let t := triageBy (fun a b => stack a == stack b) states
  let t := match ret with
    | some r => t.flatMap (groupBy r)
    | none => t
  t.flatMap fun pile => if pile.length = 1 then [pile] else triageBy canMerge pile

/-! ### Forking -/

section fork
open Classical

/-- A state: its constraints and everything else. -/
structure St (A D : Type) where
  cons : List (A → Bool)
  data : D

/-- The assignments a state stands for. -/
def St.admits {A D : Type} (s : St A D) (a : A) : Prop := ∀ c ∈ s.cons, c a = true

/-- utils.py:47-53 `get_if_constant` for a Boolean: the possible values; the outer none is the
exception when there are none. -/
noncomputable def getIfConstant {A D : Type} (s : St A D) (g : A → Bool) : Option (Option Bool) :=
  if ¬ ∃ a, s.admits a then none
  else if ¬ ∃ a, s.admits a ∧ g a = false then some (some true)
  else if ¬ ∃ a, s.admits a ∧ g a = true then some (some false)
  else some none

/-- utils.py:87-100 `fork_guarded`: the states on which the cases run, with true for
`case_true`; none is an exception. -/
noncomputable def forkGuarded {A D : Type} (s : St A D) (g : A → Bool) : Option (List (Bool × St A D)) := do
  match ← getIfConstant s g with
  | some b => some [(b, s)]
  | none => some [(false, { s with cons := s.cons ++ [fun a => !g a] }), (true, { s with cons := s.cons ++ [g] })]

end fork

/-! ### Exploration -/

/-- What the exploration needs to know of the states. -/
structure Sys (S : Type) where
  /-- angr's step of one state; no successors means the state is at its end. -/
  succ : S → List S
  pc : S → Nat
  /-- the last step returned from a function -/
  justReturned : S → Bool
  /-- the merged state of a pile, or none -/
  merge : List S → Option S
  /-- the piles of states to merge -/
  triage : List S → List (List S)

/-- The stashes of angr's simulation manager. -/
structure Stashes (S : Type) where
  active : List S
  deferred : List S
  deadended : List S

/-- merging.py:220 the (stable) sort, largest program counter first. -/
def sortDeferred {S : Type} (sys : Sys S) (l : List S) : List S :=
  l.insertionSort (fun a b => sys.pc b ≤ sys.pc a)

/-- merging.py:222-230: pops from the end while the program counter stays the same; the
list is given reversed. Returns the popped states and the remaining list, reversed. -/
def popLowest {S : Type} (sys : Sys S) : List S → List S × List S
  | [] => ([], [])
  | s :: rest => ((s :: rest).takeWhile (fun x => sys.pc x == sys.pc s), (s :: rest).dropWhile (fun x => sys.pc x == sys.pc s))

/-- merging.py:256-273: merging pile by pile. -/
def mergePiles {S : Type} (sys : Sys S) (piles : List (List S)) : List S :=
  piles.flatMap fun pile =>
    match sys.merge pile with
    | none => pile
    | some m => [m]

/-- merging.py:194-275 `step`. Only called with a non-empty active stash. -/
def step {S : Type} (sys : Sys S) (st : Stashes S) : Stashes S :=
  match st.active with
  | [] => st
  | s :: others =>
    let new := sys.succ s
    let dead := if new = [] then st.deadended ++ [s] else st.deadended
    let deferred := st.deferred ++ others ++ new
    if deferred.isEmpty then { active := [], deferred := [], deadended := dead }
    else
      let (lowest, rest) := popLowest sys (sortDeferred sys deferred).reverse
      let active :=
        if (lowest.head?.map sys.justReturned).getD false then lowest
        else mergePiles sys (sys.triage lowest)
      { active := active, deferred := rest.reverse, deadended := dead }

/-- kalm/executor.py:73 `sm.run()`: until no state is active; none if `n` steps were not enough. -/
def run {S : Type} (sys : Sys S) : Nat → Stashes S → Option (List S)
  | _, ⟨[], _, dead⟩ => some dead
  | 0, _ => none
  | n + 1, st => run sys n (step sys st)

end Verif.Tool.Merging
