/-
Model of /repo/tool/kalm/clock.py and of /repo/env/include/os/clock.h.
-/
import Mathlib.Data.List.Basic

set_option autoImplicit false

namespace Verif.Tool.Clock

/-- The metadata of kalm/clock.py:7. -/
structure TimeMetadata where
  time : BitVec 64
  cycles : BitVec 64
  deriving DecidableEq

/-- kalm/clock.py:17-19: the constraints put on the fresh `time` and `cycles`; `freq` is the value of
the 8-bit symbol of kalm/clock.py:4. `/` on bit vectors is SMT's unsigned division. -/
def Constrained (freq : BitVec 8) (m : TimeMetadata) : Prop :=
  m.time ≠ 0xFFFFFFFFFFFFFFFF#64 ∧ m.time = (m.cycles.smtUDiv (freq.zeroExtend 64)) * 10#64

/-- kalm/clock.py:9-23 `get_time_and_cycles`, under an assignment giving the fresh symbols the values
`time` and `cycles`: none if the clock was read before. The metadata of the execution is the
state. Called by packet.py:35 (packet time) and engine.py:31-33 (rdtsc). -/
def getTimeAndCycles (s : Option TimeMetadata) (fresh : TimeMetadata) : Option (Option TimeMetadata × TimeMetadata) :=
  match s with
  | some _ => none
  | none => some (some fresh, fresh)

/-- All reads of one execution with the values of their fresh symbols. -/
def reads : Option TimeMetadata → List TimeMetadata → Option (Option TimeMetadata)
  | s, [] => some s
  | s, f :: fs => do
    let (s', _) ← getTimeAndCycles s f
    reads s' fs

/-- os/clock.h:14 `os_clock_time_ns` for an answer of the time stamp counter and the two frequency
globals; division by zero (a trap) is none. -/
def osClockTimeNs (cycles num denom : Nat) : Option Nat :=
  if num = 0 then none else some (cycles / num * denom % 2 ^ 64)

end Verif.Tool.Clock
