/-
Independent specification of a learning bridge (IEEE 802.1D §7.7-7.9), as a relation
between states, frames and outputs. An entry may be forgotten once it has not been
used for the expiration time, but need not be.
-/
import Verif.Spec.Packet
import Verif.Spec.Expiring

set_option autoImplicit false

namespace Verif.BridgeSpec
open Verif.Nf (Packet Out)
open Verif.PacketSpec

structure Config where
  devices : Nat
  size : Nat
  exp : Nat
  updateTime : Nat

structure State where
  /-- Time of the last periodic spanning tree message. -/
  lastUpdate : Nat
  /-- Ports blocked by the spanning tree. -/
  blocked : List Bool
  /-- Addresses the bridge has room for, with the time they were last seen. -/
  seen : GMap Nat Nat
  /-- Device of the last data frame from each individual address. -/
  port : Nat → Option Nat

/-- Six bytes from offset `i`, as a number. -/
def addr (p : Packet) (i : Nat) : Nat := dword p i + 2 ^ 32 * word p (i + 4)
def dst (p : Packet) : Nat := addr p 0
def src (p : Packet) : Nat := addr p 6
/-- Group bit: least significant bit of the first octet. -/
def group (a : Nat) : Prop := a % 2 = 1
instance (a : Nat) : Decidable (group a) := inferInstanceAs (Decidable (_ = _))

/-- The spanning tree group address 01:80:C2:00:00:00. -/
def stpAddr : Nat := 0x01 + 256 * 0x80 + 65536 * 0xC2

/-- Not turned into, and not being, a spanning tree message. -/
def isData (c : Config) (s : State) (p : Packet) : Prop :=
  p.time ≤ (s.lastUpdate + c.updateTime) % 2 ^ 64 ∧ dst p ≠ stpAddr

instance (c : Config) (s : State) (p : Packet) : Decidable (isData c s p) := inferInstanceAs (Decidable (_ ∧ _))

/-- A spanning tree message, at a time at which none is due. -/
def isMessage (c : Config) (s : State) (p : Packet) : Prop :=
  p.time ≤ (s.lastUpdate + c.updateTime) % 2 ^ 64 ∧ dst p = stpAddr

/-- The state after learning from a data frame. -/
def learn (c : Config) (s : State) (p : Packet) : State :=
  if group (src p) then s
  else { s with seen := Expiring.learn c.size c.exp p.time s.seen (src p),
                port := fun a => if a = src p then some p.device else s.port a }

/-- Forwarding of a data frame, in the state after learning. -/
inductive Forward (c : Config) (s : State) (p : Packet) : List Out → Prop
  /-- Sent unmodified, only to the device where the destination was last seen. -/
  | known (d : Nat) : s.port (dst p) = some d → d ≠ p.device → Forward c s p [.transmit p d false]
  /-- The destination was last seen on the input device: dropped. -/
  | here : s.port (dst p) = some p.device → Forward c s p []
  /-- Not seen within the expiration time: flooded except to blocked ports. -/
  | unknown : Expiring.mem c.exp p.time s.seen (dst p) = false → Forward c s p [.floodExcept p s.blocked false]

/-- A spanning tree message made from the frame: only bytes 14 to 33 change. -/
def Message (p q : Packet) : Prop :=
  q.device = p.device ∧ q.time = p.time ∧ ∀ x, (x < 14 ∨ 34 ≤ x) → byte q x = byte p x

inductive Step (c : Config) (s : State) (p : Packet) : List Out → State → Prop
  | data (outs : List Out) : isData c s p → Forward c (learn c s p) p outs → Step c s p outs (learn c s p)
  /-- Time for a periodic message. -/
  | periodic (q : Packet) : (s.lastUpdate + c.updateTime) % 2 ^ 64 < p.time → Message p q →
      Step c s p [.flood q true] { s with lastUpdate := p.time }
  /-- A message with a worse root blocks its port. -/
  | worse : isMessage c s p → Step c s p [] { s with blocked := s.blocked.set p.device true }
  /-- A message with better information opens its port and is passed on. -/
  | better (q : Packet) : isMessage c s p → Message p q →
      Step c s p [.flood q true] { s with blocked := s.blocked.set p.device false }
  | ignored : isMessage c s p → Step c s p [] s

inductive Run (c : Config) : State → List Packet → List (List Out) → State → Prop
  | nil (s) : Run c s [] [] s
  | cons {s s' s'' p o ps os} : Step c s p o s' → Run c s' ps os s'' → Run c s (p :: ps) (o :: os) s''

end Verif.BridgeSpec
