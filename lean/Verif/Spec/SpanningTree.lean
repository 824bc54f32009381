/-
Independent specification of what a bridge knows of the spanning tree: the best path to a root that has been announced to it,
in the order of IEEE 802.1D §9.2.6 (root identifier, then cost, then port), as far as /repo/nf/bridge/spanning_tree.h implements
it. A message is the destination address 01:80:C2:00:00:00 followed by, at byte 14, the root (8 bytes), the cost (4) and the
sender (8), least significant byte first. Every link costs 10.
-/
import Verif.Spec.Bridge

set_option autoImplicit false

namespace Verif.SpanningTree
open Verif.Nf (Packet Out)
open Verif.PacketSpec

/-- Eight bytes from offset `i`, as a number. -/
def qword (p : Packet) (i : Nat) : Nat := dword p i + 2 ^ 32 * dword p (i + 4)

/-- A path to a root. -/
structure Path where
  root : Nat
  cost : Nat
  port : Nat
  deriving DecidableEq

/-- A smaller root identifier, or the same and a smaller cost, or both the same and a smaller port. -/
def Path.Better (a b : Path) : Prop := a.root < b.root ∨ (a.root = b.root ∧ (a.cost < b.cost ∨ (a.cost = b.cost ∧ a.port < b.port)))

instance (a b : Path) : Decidable (a.Better b) := inferInstanceAs (Decidable (_ ∨ _))

/-- The path that a message offers. -/
def offer (p : Packet) : Path := ⟨qword p 14, (dword p 22 + 10) % 2 ^ 32, p.device⟩

structure State where
  best : Path
  blocked : List Bool
  /-- When the bridge last announced its path by itself. -/
  last : Nat

inductive Answer where
  /-- Not about the spanning tree: the frame is forwarded. -/
  | data
  /-- The frame is consumed. -/
  | silent
  /-- The frame is turned into an announcement of the path, of the given length. -/
  | announce (path : Path) (length : Nat)

/-- Announcements are due `every` so often, in 64-bit time. -/
def step (every : Nat) (s : State) (p : Packet) : State × Answer :=
  if (s.last + every) % 2 ^ 64 < p.time then ({ s with last := p.time }, .announce s.best 34)
  else if BridgeSpec.dst p ≠ BridgeSpec.stpAddr then (s, .data)
  else if s.best.root < (offer p).root then ({ s with blocked := s.blocked.set p.device true }, .silent)
  else if (offer p).Better s.best then ({ s with best := offer p, blocked := s.blocked.set p.device false }, .announce (offer p) p.length)
  else (s, .silent)

def run (every : Nat) : State → List Packet → State × List Answer
  | s, [] => (s, [])
  | s, p :: ps =>
    let r := step every s p
    let rs := run every r.1 ps
    (rs.1, r.2 :: rs.2)

/-- The offers in the messages that the bridge reads: those that are not turned into announcements because one is due. -/
def offers (every : Nat) : State → List Packet → List Path
  | _, [] => []
  | s, p :: ps =>
    let rest := offers every (step every s p).1 ps
    if (s.last + every) % 2 ^ 64 < p.time then rest
    else if BridgeSpec.dst p ≠ BridgeSpec.stpAddr then rest
    else offer p :: rest

/-- The offers that the bridge passes on. -/
def passedOn (every : Nat) : State → List Packet → List Path
  | _, [] => []
  | s, p :: ps =>
    let rest := passedOn every (step every s p).1 ps
    if (step every s p).1.best = s.best then rest else (step every s p).1.best :: rest

/-- What the outputs of a bridge with identifier `self` for a frame must be. -/
def Matches (self : Nat) (p : Packet) : Answer → List Out → Prop
  | .data, outs => outs = [] ∨ (∃ d, outs = [.transmit p d false]) ∨ ∃ e, outs = [.floodExcept p e false]
  | .silent, outs => outs = []
  | .announce path length, outs => ∃ q, outs = [.flood q true] ∧ qword q 14 = path.root ∧ dword q 22 = path.cost ∧ qword q 26 = self ∧
      q.length = length ∧ q.device = p.device ∧ q.time = p.time ∧ ∀ x, (x < 14 ∨ 34 ≤ x) → byte q x = byte p x

end Verif.SpanningTree
