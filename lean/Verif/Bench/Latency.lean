/-
Model of the measurement of latencies: /repo/benchmarking/bench-moongen.lua:50-67 (`dumpLatencies`), :125-166 (`_latencyTask`) and
:370-410 (the background traffic, in `measureStandard`).

Times are whole microseconds since the latency task was started. How long things take is given: a run of the benchmark is a value
of `Run`. MoonGen's timers are not in /repo: a timer runs until its duration has passed since it was made or reset. A run that is
interrupted (`mg.running()` is false) is left out, and so are losses of the background traffic that end the benchmark (see C85).
-/
set_option autoImplicit false

namespace Verif.Bench.Latency

/-- bench-moongen.lua:24, 25 and 30, in microseconds. -/
def duration : Nat := 30000000
def heatupDuration : Nat := 5000000
def padding : Nat := 50000

/-- :140-142 and 155-157: how long an iteration takes, with the wait that limits the rate, and the latency, `none` if the packet is lost. -/
structure Probe where
  took : Nat
  latency : Option Nat

/-- What a loop of measurements does: when its iterations begin and end, the latencies in `lats`, and when it ends. -/
structure Measured where
  probes : List (Nat × Nat)
  lats : List Nat
  ended : Nat

/-- :139-143 and 154-158: a loop from the time `now` until the timer ends at `limit`, if its iterations are `probes`; `none` if they
are not enough. Assigning nil in Lua (:155) leaves `lats` as it is. -/
def measureUntil (limit : Nat) : Nat → List Probe → Option Measured
  | now, [] => if now < limit then none else some ⟨[], [], now⟩
  | now, p :: ps =>
    if now < limit then
      match measureUntil limit (now + p.took) ps with
      | none => none
      | some m => some ⟨(now, now + p.took) :: m.probes, (match p.latency with
        | none => m.lats
        | some l => l :: m.lats), m.ended⟩
    else some ⟨[], [], now⟩

/-- How long the parts of :148-163 take: the first pause, the iterations, the output, the second pause. -/
structure Round where
  before : Nat
  probes : List Probe
  output : Nat
  after : Nat

/-- :148-163, from the time `now`: what is measured, and when it ends. -/
def Round.run (now : Nat) (r : Round) : Option (Measured × Nat) :=
  match measureUntil (now + r.before + duration) (now + r.before) r.probes with
  | none => none
  | some m => some (m, m.ended + r.output + r.after)

/-- :147-163, from the time `now`. -/
def rounds (now : Nat) : List Round → Option (List Measured)
  | [] => some []
  | r :: rs =>
    match r.run now with
    | none => none
    | some (m, next) =>
      match rounds next rs with
      | none => none
      | some ms => some (m :: ms)

/-- How long the parts of :375-401 take beside the duration: until the traffic of all tasks is sent, after its duration until it ends,
and until the next one. Without traffic, the pause stands for it (:379-380). -/
structure Load where
  setup : Nat
  over : Nat
  finish : Nat

/-- :375-401, from the time `now`: when the background traffic of each rate begins and ends. -/
def loads (now : Nat) : List Load → List (Nat × Nat)
  | [] => []
  | l :: ls =>
    (now + l.setup, now + l.setup + (duration + padding * 2) + l.over) :: loads (now + l.setup + (duration + padding * 2) + l.over + l.finish) ls

/-- How long the parts of a measurement take: until the latency task starts its heatup, the iterations of the heatup, the pause for it in
the main task (:373), and the rounds of both. -/
structure Run where
  lag : Nat
  heatup : List Probe
  pause : Nat
  rounds : List Round
  loads : List Load

/-- :129-145: when the heatup ends. -/
def Run.heated (r : Run) : Option Nat :=
  match measureUntil (r.lag + heatupDuration) r.lag r.heatup with
  | none => none
  | some m => some m.ended

/-- :125-166 `_latencyTask`. -/
def Run.latencies (r : Run) : Option (List Measured) :=
  match r.heated with
  | none => none
  | some now => Latency.rounds now r.rounds

/-- :373-401. -/
def Run.traffic (r : Run) : List (Nat × Nat) := Latency.loads r.pause r.loads

/-- :61-67 `dumpLatencies`: the lines of a file. -/
def dump (lats : List Nat) : List String := lats.map toString

end Verif.Bench.Latency
