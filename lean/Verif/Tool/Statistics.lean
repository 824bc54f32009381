/-
Model of /repo/tool/klint/statistics.py, and of when a run of the tool calls it: /repo/tool/klint/executor.py:64-82 and
108-111 (for a full stack, 165-167), /repo/tool/klint/verif/executor.py:58-69, /repo/tool/klint/ghostmaps.py:906 and /repo/tool/klint/__main__.py:33-60.

Times are whole microseconds, as those of `datetime.now()`; they are added exactly, where Python adds floats. The clock may go
back. An assertion that fails is `none`.
-/
set_option autoImplicit false

namespace Verif.Tool.Statistics

/-- A value: a time, which is a float, or a number given by `set_value`. -/
inductive Val where
  | time (micros : Int)
  | count (n : Nat)

/-- statistics.py:5-6: `_current_work` and `_values`, by name. -/
structure Stats where
  current : Option (String × Int)
  values : List (String × Val)

/-- Python's `values[name]`. -/
def find (values : List (String × Val)) (name : String) : Option Val := (values.find? fun p => p.1 == name).map (·.2)

/-- Python's `values[name] = v`. -/
def store (values : List (String × Val)) (name : String) (v : Val) : List (String × Val) :=
  if values.any (fun p => p.1 == name) then values.map fun p => if p.1 == name then (name, v) else p else values ++ [(name, v)]

/-- statistics.py:8-11. -/
def workStart (s : Stats) (name : String) (now : Int) : Option Stats :=
  match s.current with
  | none => some { s with current := some (name, now) }
  | some _ => none

/-- A time added to a value, or to nothing: statistics.py:19. -/
def plus (v : Option Val) (micros : Int) : Val :=
  match v with
  | none => .time micros
  | some (.time t) => .time (t + micros)
  | some (.count n) => .time (n * 1000000 + micros)

/-- statistics.py:13-20. -/
def workEnd (s : Stats) (now : Int) : Option Stats :=
  match s.current with
  | none => none
  | some (name, start) => some ⟨none, store s.values name (plus (find s.values name) (now - start))⟩

/-- statistics.py:22-24. -/
def setValue (s : Stats) (name : String) (n : Nat) : Stats := { s with values := store s.values name (.count n) }

/-- statistics.py:27-30 `to_str`: `int` rounds towards 0. -/
def toStr : Val → String
  | .time t => toString (t.tdiv 1000000)
  | .count n => toString n

/-- A name put in its place in a sorted list. -/
def insertSorted (x : String) : List String → List String
  | [] => [x]
  | y :: ys => if y < x then y :: insertSorted x ys else x :: y :: ys

/-- Python's `sorted`. -/
def sorted (l : List String) : List String := l.foldr insertSorted []

/-- statistics.py:33-36, the columns of the two lines. -/
def columns (s : Stats) : List String × List String :=
  (sorted (s.values.map (·.1)), (sorted (s.values.map (·.1))).map fun k => match find s.values k with
    | some v => toStr v
    | none => "")

/-- statistics.py:26-36 `to_tsv`. -/
def toTsv (s : Stats) : List String := ["\t".intercalate (columns s).1, "\t".intercalate (columns s).2]

/-! ### A run -/

inductive Event where
  | start (name : String) (now : Int)
  | stop (now : Int)
  | value (name : String) (n : Nat)

def apply (s : Stats) : Event → Option Stats
  | .start name now => workStart s name now
  | .stop now => workEnd s now
  | .value name n => some (setValue s name n)

/-- What is recorded after some events, from a state. -/
def after (s : Stats) : List Event → Option Stats
  | [] => some s
  | ev :: evs => match apply s ev with
    | none => none
    | some s => after s evs

/-- The state when the tool is started. -/
def fresh : Stats := ⟨none, []⟩

/-- When a phase of work begins and ends. -/
structure Phase where
  begin_ : Int
  end_ : Int

def Phase.events (name : String) (p : Phase) : List Event := [.start name p.begin_, .stop p.end_]

/-- An iteration of the main loop that is not the last: executor.py:65-80. -/
def iteration (it : Phase × Phase) : List Event := it.1.events "symbex" ++ it.2.events "infer"

/-- The last iteration, which finds the fixed point and sets the number of invariants (ghostmaps.py:906) while it infers; if
it has no states, the number is not set (ghostmaps.py:850-851), and `invs` is `none`. -/
def lastIteration (it : Phase × Phase) (invs : Option Nat) : List Event :=
  it.1.events "symbex" ++ [.start "infer" it.2.begin_] ++ (match invs with
    | none => []
    | some n => [.value "#invs" n]) ++ [.stop it.2.end_]

/-- executor.py:108-111 (or 165-167) and 64-82: the symbolic execution of an NF that ends. -/
def execution (init : Phase) (its : List (Phase × Phase)) (last : Phase × Phase) (invs : Option Nat) : List Event :=
  init.events "symbex" ++ its.flatMap iteration ++ lastIteration last invs

/-- What a run of the tool does: `symbex` is the symbolic execution, or nothing if its cached results are used
(__main__.py:46-58), and `verif` the verification (verif/executor.py:62-68), or nothing without a specification (34-40). -/
def run (symbex : Option (List Event)) (verif : Option Phase) : List Event :=
  symbex.getD [] ++ match verif with
    | none => []
    | some p => p.events "verif"

/-- __main__.py:43-44: what a run prints at its end. -/
def printed (symbex : Option (List Event)) (verif : Option Phase) : Option (List String) :=
  (after fresh (run symbex verif)).map toTsv

end Verif.Tool.Statistics
