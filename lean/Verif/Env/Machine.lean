/-
Model of the whole program on one processor: /repo/env/src/net/tinynf/main.c:51-62, 93-99,
ixgbe.c:1265-1269 `tn_run` and /repo/env/src/verif/drivers.c:11-18 `foreach_index_forever`.

There are `n` devices and `n` agents. Agent `i` receives from device `i` and has an output
for each other device. The agents take turns, each until `tn_run_peragent` returns; they
share the network function and the clock. Every agent has its own memory and queues (C56),
on which the cards act at any time, as in Verif.Env.Ixgbe.

Simplifications.
* Those of Verif.Env.Ixgbe.
* The clock is read and the network function runs in one step.
-/
import Verif.Env.Ixgbe

set_option autoImplicit false

namespace Verif.Machine
open Verif.Ixgbe

/-- The agent with another state of the network function, which is not the agent's. -/
def setNf {σ τ D : Type} (s : St σ D) (x : τ) : St τ D :=
  { pc := s.pc, nf := x, buf := s.buf, ring := s.ring, lengths := s.lengths, pd := s.pd, heads := s.heads, rdh := s.rdh,
    rdt := s.rdt, tdh := s.tdh, tdt := s.tdt, reported := s.reported, received := s.received, sent := s.sent }

/-- The state of the machine. -/
structure St (σ D : Type) where
  /-- State of the network function. -/
  nf : σ
  /-- What os_clock_time_ns returns. -/
  now : Nat
  /-- `index` in foreach_index_forever, the agent whose turn it is. -/
  turn : Nat
  /-- The agents with their memory and queues. -/
  agents : Nat → Ixgbe.St Unit D

/-- The packet handler (main.c:51-62), given the device and the time. -/
abbrev Handler (σ D : Type) := Nat → Nat → Ixgbe.Handler σ D

/-- `tn_run_peragent` is at its start, `flush_counter` being zero. In `agentStep` that means
that it has returned. -/
def atStart : Pc → Bool
  | .poll 0 => true
  | _ => false

/-- The processor's next access. -/
def runStep {σ D : Type} (n : Nat) (h : Handler σ D) (m : St σ D) : St σ D :=
  let t := agentStep (n - 1) (h m.turn m.now) (setNf (m.agents m.turn) m.nf)
  { m with
    nf := t.nf
    agents := upd m.agents m.turn (setNf t ())
    turn := if atStart t.pc then (m.turn + 1) % n else m.turn }

/-- The steps of the cards that serve one agent, as in `Ixgbe.Step`. -/
inductive Card {σ D : Type} (outs : Nat) : Ixgbe.St σ D → Ixgbe.St σ D → Prop
  | fill (s : Ixgbe.St σ D) (d : D) : s.rdh ≠ s.rdt → Card outs s { s with buf := upd s.buf s.rdh d }
  | complete (s : Ixgbe.St σ D) (m : BitVec 64) : s.rdh ≠ s.rdt → done m = true →
      Card outs s { s with
        ring := upd s.ring 0 (upd (s.ring 0) s.rdh m)
        rdh := (s.rdh + 1) % ringSize
        received := s.received ++ [(s.buf s.rdh, lenOf m)] }
  | send (s : Ixgbe.St σ D) (n : Nat) : n < outs → s.tdh n ≠ s.tdt n →
      Card outs s { s with
        sent := upd s.sent n (s.sent n ++ [(s.buf (s.tdh n), lenOf (s.ring n (s.tdh n)))])
        tdh := upd s.tdh n ((s.tdh n + 1) % ringSize)
        reported := if (s.ring n (s.tdh n)).getLsbD 27 then upd s.reported n ((s.tdh n + 1) % ringSize)
          else s.reported }
  | writeBack (s : Ixgbe.St σ D) (n : Nat) : n < outs →
      Card outs s { s with heads := upd s.heads n (s.reported n) }

/-- One step of the machine. -/
inductive Step {σ D : Type} (n : Nat) (h : Handler σ D) : St σ D → St σ D → Prop
  | run (m : St σ D) : Step n h m (runStep n h m)
  /-- Time passes. -/
  | tick (m : St σ D) (t : Nat) : m.now ≤ t → Step n h m { m with now := t }
  /-- A card accesses the memory of an agent. -/
  | card (m : St σ D) (i : Nat) (s : Ixgbe.St Unit D) : i < n → Card (n - 1) (m.agents i) s →
      Step n h m { m with agents := upd m.agents i s }

/-- Zero or more steps. -/
inductive Steps {σ D : Type} (n : Nat) (h : Handler σ D) (m : St σ D) : St σ D → Prop
  | refl : Steps n h m m
  | step {t u : St σ D} : Steps n h m t → Step n h t u → Steps n h m u

/-- When main.c:98 calls tn_run. -/
def start {σ D : Type} (nf : σ) (now : Nat) (buf : Nat → Nat → D) : St σ D :=
  { nf := nf, now := now, turn := 0, agents := fun i => Ixgbe.start () (buf i) }

end Verif.Machine
