/-
Model of the command line of the tool: /repo/tool/klint/__main__.py:26-95 (`load_spec`, `verif`, `handle_libnf`, `handle_fullstack`, `main`),
/repo/tool/klint/verif/persistence.py:43-53 (`dump_data`, `load_data`), /repo/tool/klint/verif/executor.py:58-69 (`verify`),
/repo/tool/klint/executor.py:103-132 (`get_libnf_inited_states`, `execute_libnf`).

The symbolic execution of a binary and the check of a specification are parameters here; the models of their parts are in Tool/Infer.lean
(`find_fixedpoint_states`) and Tool/Symbex.lean (`symbex.symbex`), and Props/Pipeline.lean puts them together. The drawing of graphs and the lines of
statistics are left out: nothing depends on them. Specifications are given by what they mean; that the file of the specification exists and can be loaded is part of `checks`.
-/
import Verif.Tool.Infer
import Verif.Tool.Symbex

set_option autoImplicit false

namespace Verif.Pipeline

/-- What a file contains: a binary, the data of states (persistence.py:46), or something that is neither (such as an interrupted dump). -/
inductive Content (B D : Type) where
  | binary (b : B)
  | data (ds : List D)
  | other

/-- Files by path. -/
abbrev Files (B D : Type) := String → Option (Content B D)

/-- Write to a file. -/
def Files.write {B D : Type} (fs : Files B D) (path : String) (c : Content B D) : Files B D := fun p => if p = path then some c else fs p

/-- __main__.py:67-75: the two commands. -/
inductive Command where
  | libnf | fullstack
deriving DecidableEq, Repr

/-- The parts of the tool: the states that `execute_libnf` and `execute_nf` return for a binary, as `StateData` (persistence.py:24-40), `none` if they raise; whether the states can be
pickled (persistence.py:48); whether `symbex.symbex` (verif/executor.py:67) returns for a specification and states. -/
structure Engine (B D S : Type) where
  libnf : B → Option (List D)
  nf : B → Option (List D)
  pickles : List D → Bool
  checks : S → List D → Bool

/-- The states of a command. -/
def Engine.execute {B D S : Type} (e : Engine B D S) : Command → B → Option (List D)
  | .libnf => e.libnf
  | .fullstack => e.nf

/-- What is printed, as far as it matters here. -/
inductive Line where
  /-- __main__.py:36 -/
  | noSpecification
  /-- verif/executor.py:61 -/
  | verifying (states : Nat)
  /-- verif/executor.py:69 -/
  | verified
deriving DecidableEq, Repr

/-- What a run of the tool leaves: the files, what was printed, and whether it ended without an exception. -/
structure Outcome (B D : Type) where
  files : Files B D
  lines : List Line
  ok : Bool

/-- __main__.py:47, 54: the path of the data of states. -/
def cachePath (file : String) : String := file ++ ".symbex-cache"

/-- verif/executor.py:58-69 `verify`. -/
def verify {B D S : Type} (e : Engine B D S) (s : S) (ds : List D) : List Line × Bool :=
  if e.checks s ds then ([.verifying ds.length, .verified], true) else ([.verifying ds.length], false)

/-- __main__.py:34-44 `verif`, and persistence.py:51-53 `load_data`. -/
def verif {B D S : Type} (e : Engine B D S) (fs : Files B D) (dataPath : String) : Option S → Outcome B D
  | none => ⟨fs, [.noSpecification], true⟩
  | some s =>
    match fs dataPath with
    | some (.data ds) => ⟨fs, (verify e s ds).1, (verify e s ds).2⟩
    | _ => ⟨fs, [], false⟩

/-- __main__.py:46-58 `handle_libnf`, `handle_fullstack`; persistence.py:43-48 `dump_data`: the file is opened, and so emptied, before the data is pickled. -/
def handle {B D S : Type} (e : Engine B D S) (fs : Files B D) (c : Command) (useCached : Bool) (file : String) (spec : Option S) : Outcome B D :=
  if !useCached || (fs (cachePath file)).isNone then
    match fs file with
    | some (.binary b) =>
      match e.execute c b with
      | none => ⟨fs, [], false⟩
      | some ds =>
        if e.pickles ds then verif e (fs.write (cachePath file) (.data ds)) (cachePath file) spec
        else ⟨fs.write (cachePath file) .other, [], false⟩
    | _ => ⟨fs, [], false⟩
  else verif e fs (cachePath file) spec

/-- What happens to the files: the tool is run, or somebody writes a binary (compiles), writes something else that is not data of states, or deletes a file. -/
inductive Event (B S : Type) where
  | run (c : Command) (useCached : Bool) (file : String) (spec : Option S)
  | compile (path : String) (b : B)
  | overwrite (path : String)
  | delete (path : String)

/-- The files after an event. -/
def Event.apply {B D S : Type} (e : Engine B D S) (fs : Files B D) : Event B S → Files B D
  | .run c u file spec => (handle e fs c u file spec).files
  | .compile path b => fs.write path (.binary b)
  | .overwrite path => fs.write path .other
  | .delete path => fun p => if p = path then none else fs p

/-- A state after `nf_init`: the assignments that satisfy its constraints, and the byte that is returned. -/
structure InitState (A : Type) where
  C : A → Prop
  ret : A → BitVec 8

open Classical in
/-- executor.py:112-121: a returned value other than 0 is added to the constraints; unsatisfiable states are dropped. -/
noncomputable def initedStates {A : Type} (results : List (InitState A)) : List (InitState A) :=
  (results.map fun s => { s with C := fun ρ => s.C ρ ∧ s.ret ρ ≠ 0 }).filter fun s => decide (∃ ρ, s.C ρ)

/-- claripy's names for symbols (`_make_name` in claripy/ast/base.py, which is not in /repo): the given name, the next number, and the size in bits, -1 for Booleans. -/
def symbolName (base : String) (number : Nat) (size : Int) : String := base ++ "_" ++ toString number ++ "_" ++ toString size

/-- The names of symbols made one after the other, starting with the given number. -/
def symbolNames (start : Nat) : List (String × Int) → List String
  | [] => []
  | (base, size) :: rest => symbolName base start size :: symbolNames (start + 1) rest

/-- verif/executor.py:59: the number from which `verify` counts. -/
def verifyStart : Nat := 1000000

/-- The names of the symbols of an execution, which counts from 0, and of those that the verification then makes. -/
def executionNames (made : List (String × Int)) : List String := symbolNames 0 made
def verificationNames (made : List (String × Int)) : List String := symbolNames verifyStart made

end Verif.Pipeline
