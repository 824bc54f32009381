/-
A network of bridges: machines that run /repo/nf/bridge/bridge.c on the runtime
/repo/env/src/net/tinynf/main.c, connected by wires, with hosts on the other devices.

Simplifications.
* A machine handles a frame in one step (main.c:51-62 and the driver; see Verif.Env.Machine
  for the cards and the driver, which lose no frame and send what the handler asks for, C72).
* Wires and cards lose nothing; frames may overtake each other.
* Every frame carries the way it has come, and there are records of what was handed in, what
  the bridges handled, and what left the network. The code does not use them.
-/
import Verif.Nf.Bridge
import Verif.Nf.Machine

set_option autoImplicit false

namespace Verif.Nf.BridgeNet
open Verif.Nf.Runtime

/-- A device of a bridge. -/
abbrev Port := Nat × Nat

/-- main.c:87, the address of the endpoint of device `n`; shifts of a 64-bit number,
converted to 8 bits. -/
def endpointMac (n : Nat) : List UInt8 :=
  [0, UInt8.ofNat (n / 2 ^ 10), UInt8.ofNat (n / 2 ^ 20), UInt8.ofNat (n / 2 ^ 30), UInt8.ofNat (n / 2 ^ 40), 0]

/-- The configuration of a bridge, bridge.c:21-28. -/
structure Config where
  bid : Nat
  expiration : Nat
  capacity : Nat
  updateTime : Nat

/-- The bridges and the wires. -/
structure Net where
  /-- Number of bridges. -/
  bridges : Nat
  /-- Number of devices of each bridge. -/
  devices : Nat → Nat
  config : Nat → Config
  /-- Address of each device, six bytes, as in main.c:88-90. -/
  mac : Nat → Nat → List UInt8
  /-- The other end of the wire at a device; none if a host, or nothing, is there. -/
  link : Port → Option Port

/-- The addresses of a bridge, main.c:81-91. -/
def Net.macs (net : Net) (b : Nat) : Macs :=
  { endpoint := (List.range (net.devices b)).map endpointMac
    device := (List.range (net.devices b)).map (net.mac b) }

/-- Contents of a frame: the first `length` bytes count. -/
structure Frame where
  data : Mem
  length : Nat

/-- A frame on a wire. -/
structure Flying where
  /-- Which of the frames handed in by hosts it comes from. -/
  id : Nat
  /-- The devices at which it arrived, the last one first; it is on the wire to the first. -/
  route : List Port
  frame : Frame

/-- State of the network. -/
structure St where
  bridge : Nat → Bridge.State
  /-- Time of the last frame each bridge handled. -/
  clock : Nat → Nat
  wire : List Flying
  /-- Frames handed in, with the device; the number in the list is the `id`. -/
  injected : List (Port × Frame)
  /-- Frames handled, and whether the handling bridge made a spanning tree message of it
  because one was due (spanning_tree.h:45). -/
  handled : List (Flying × Bool)
  /-- Frames that left the network; the route begins with the device. -/
  left : List Flying

/-- main.c:51-62 on one frame: the bridge, and the functions it calls. The lengths are zero
before (C55, C72). -/
def process (macs : Macs) (n : Nat) (s : Bridge.State) (p : Packet) : Option (Bridge.State × Mem × List Nat) := do
  let (s, outs) ← Bridge.handle s p
  let (m, lengths) ← Machine.emitAll macs n p.data (List.replicate (n - 1) 0) outs
  some (s, m, lengths)

/-- ixgbe.c:1232-1235: the devices on which the frame is sent, with the lengths. -/
def copies (n input : Nat) (lengths : List Nat) : List (Nat × Nat) :=
  (List.range n).filterMap fun o => (sent input lengths o).map fun l => (o, l)

/-- The copies that go to other bridges. -/
def onward (net : Net) (b : Nat) (f : Flying) (m : Mem) (cs : List (Nat × Nat)) : List Flying :=
  cs.filterMap fun c => (net.link (b, c.1)).map fun e => { id := f.id, route := e :: f.route, frame := ⟨m, c.2⟩ }

/-- The copies that leave the network. -/
def leaving (net : Net) (b : Nat) (f : Flying) (m : Mem) (cs : List (Nat × Nat)) : List Flying :=
  cs.filterMap fun c =>
    if net.link (b, c.1) = none then some { id := f.id, route := (b, c.1) :: f.route, frame := ⟨m, c.2⟩ } else none

/-- spanning_tree.h:45, a message is due. -/
def due (s : Bridge.State) (time : Nat) : Bool := decide (time > (s.stp.lastUpdate + s.stp.updateTime) % 2 ^ 64)

/-- What one bridge does with one frame. -/
def St.after (net : Net) (s : St) (b d : Nat) (f : Flying) (wire : List Flying) (time : Nat)
    (r : Bridge.State × Mem × List Nat) : St :=
  { bridge := fun x => if x = b then r.1 else s.bridge x
    clock := fun x => if x = b then time else s.clock x
    wire := wire ++ onward net b f r.2.1 (copies (net.devices b) d r.2.2)
    injected := s.injected
    handled := s.handled ++ [(f, due (s.bridge b) time)]
    left := s.left ++ leaving net b f r.2.1 (copies (net.devices b) d r.2.2) }

/-- One step of the network. -/
inductive Step (net : Net) : St → St → Prop
  /-- A host hands in a frame. Ethernet frames have at least 60 bytes without the checksum. -/
  | inject (s : St) (b d : Nat) (f : Frame) : b < net.bridges → d < net.devices b → net.link (b, d) = none →
      60 ≤ f.length →
      Step net s { s with
        wire := s.wire ++ [{ id := s.injected.length, route := [(b, d)], frame := f }]
        injected := s.injected ++ [((b, d), f)] }
  /-- A bridge handles a frame. The card pads short frames; what follows the frame in the
  receiving buffer can be anything. -/
  | handle (s : St) (pre post : List Flying) (f : Flying) (b d : Nat) (rest : List Port) (time : Nat) (data : Mem)
      (r : Bridge.State × Mem × List Nat) : s.wire = pre ++ f :: post → f.route = (b, d) :: rest →
      s.clock b ≤ time → time < 2 ^ 64 - 1 → (∀ x < f.frame.length, data x = f.frame.data x) →
      process (net.macs b) (net.devices b) (s.bridge b)
        { data := data, length := max f.frame.length 60, time := time, device := d } = some r →
      Step net s (s.after net b d f (pre ++ post) time r)

/-- Every bridge has started (bridge.c:15-36, main.c:70-73) and nothing has happened yet. -/
structure Start (net : Net) (s : St) : Prop where
  bridge : ∀ b < net.bridges, Bridge.init (net.devices b) (net.config b).bid (net.config b).expiration
    (net.config b).capacity (net.config b).updateTime = some (s.bridge b)
  clock : ∀ b, s.clock b = 0
  wire : s.wire = []
  injected : s.injected = []
  handled : s.handled = []
  left : s.left = []

/-- The states the network can get into. -/
inductive Reachable (net : Net) : St → Prop
  | start (s : St) : Start net s → Reachable net s
  | step {s t : St} : Reachable net s → Step net s t → Reachable net t

end Verif.Nf.BridgeNet
