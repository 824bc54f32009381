/-
Notions about networks of bridges: wires, ways through the network, loops, addresses.
-/
import Verif.Nf.BridgeNet
import Verif.Spec.Bridge

set_option autoImplicit false

namespace Verif.BridgeNetSpec
open Verif.Nf.BridgeNet (Net Port Frame Flying St endpointMac)

/-- The wires: both ends know each other, and are devices that exist. A bridge has two
devices or more. -/
structure Wired (net : Net) : Prop where
  two : ∀ b < net.bridges, 2 ≤ net.devices b
  sym : ∀ p q, net.link p = some q → net.link q = some p
  exist : ∀ b o q, net.link (b, o) = some q → b < net.bridges ∧ o < net.devices b

/-- A way through the network, given by the devices at which one arrives, the last one
first. One leaves a bridge through another device than the one at which one arrived. -/
inductive Route (net : Net) : List Port → Prop
  | first (p : Port) : Route net [p]
  | next {b d : Nat} {r : List Port} (o : Nat) (e : Port) : Route net ((b, d) :: r) → o ≠ d → net.link (b, o) = some e →
      Route net (e :: (b, d) :: r)

/-- No way through the network comes to the same bridge twice. -/
def LoopFree (net : Net) : Prop := ∀ r, Route net r → (r.map Prod.fst).Nodup

/-- Six bytes from offset `i`, as a number. -/
def addr (m : Mem) (i : Nat) : Nat :=
  (m i).toNat + 256 * (m (i + 1)).toNat + 256 ^ 2 * (m (i + 2)).toNat + 256 ^ 3 * (m (i + 3)).toNat +
    256 ^ 4 * (m (i + 4)).toNat + 256 ^ 5 * (m (i + 5)).toNat
def dst (f : Frame) : Nat := addr f.data 0
def src (f : Frame) : Nat := addr f.data 6

/-- An address given by its six bytes; missing ones count as zero. -/
def number (a : List UInt8) : Nat := addr (fun i => (a[i]?).getD 0) 0

/-- The same bytes. -/
def Same (f g : Frame) : Prop := f.length = g.length ∧ ∀ x < f.length, f.data x = g.data x

/-- Device `q` exists, and there is a way on which a frame handed in at `p` can leave there. -/
def Connected (net : Net) (p q : Port) : Prop :=
  ∃ d r, Route net ((q.1, d) :: r) ∧ ((q.1, d) :: r).getLast? = some p ∧ q.2 ≠ d ∧ q.2 < net.devices q.1

/-- `n` of the devices of bridge `b`, or more, are connected to bridges. -/
def Linked (net : Net) (b n : Nat) : Prop :=
  ∃ l : List Nat, l.Nodup ∧ l.length = n ∧ ∀ o ∈ l, ∃ e, net.link (b, o) = some e

/-- The runtime takes the address for that of an endpoint. -/
def Endpoint (net : Net) (a : Nat) : Prop := ∃ b < net.bridges, ∃ d < net.devices b, a = number (endpointMac d)

/-- The frame is for a group, except that of spanning tree messages, or for an endpoint. -/
def Astray (net : Net) (f : Frame) : Prop :=
  (BridgeSpec.group (dst f) ∧ dst f ≠ BridgeSpec.stpAddr) ∨ Endpoint net (dst f)

end Verif.BridgeNetSpec
