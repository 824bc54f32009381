/-
Independent specification of a network address translator (RFC 3022 style), as a
relation between states, packets and outputs.
-/
import Verif.Spec.Packet
import Verif.Spec.Expiring

set_option autoImplicit false

namespace Verif.NatSpec
open Verif.Nf (Packet Flow Out)
open Verif.PacketSpec

structure Config where
  externalAddr : Nat
  wanDevice : Nat
  size : Nat
  exp : Nat

/-- The tracked internal flows with their last use, and the port assigned to each. -/
structure State where
  flows : GMap Flow Nat
  port : Flow → Nat

/-- `f` is tracked and has not expired at `now`. -/
def Live (c : Config) (s : State) (now : Nat) (f : Flow) : Prop := Expiring.mem c.exp now s.flows f = true

/-- What a packet sent to the WAN must look like: the source is the external address
and port, the destination is unchanged. -/
def Outbound (c : Config) (p q : Packet) (port : Nat) : Prop :=
  dword q 26 = c.externalAddr ∧ word q 34 = port ∧ dword q 30 = dword p 30 ∧ word q 36 = word p 36 ∧
  isTcpUdp q ∧ byte q 23 = byte p 23 ∧ q.length = p.length ∧ q.device = p.device ∧ q.time = p.time

/-- What a packet delivered inside must look like: the destination is the internal
end of the flow, the source port is unchanged. -/
def Inbound (p q : Packet) (f : Flow) : Prop :=
  dword q 30 = f.srcIp ∧ word q 36 = f.srcPort ∧ word q 34 = word p 34 ∧
  isTcpUdp q ∧ byte q 23 = byte p 23 ∧ q.length = p.length ∧ q.device = p.device ∧ q.time = p.time

/-- The peer of flow `f` sent packet `p`. -/
def FromPeer (p : Packet) (f : Flow) : Prop :=
  f.dstIp = dword p 26 ∧ f.dstPort = word p 34 ∧ f.protocol = byte p 23

inductive Step (c : Config) (s : State) (p : Packet) : List Out → State → Prop
  /-- Not TCP/UDP over IPv4: dropped. -/
  | other : ¬ isTcpUdp p → Step c s p [] s
  /-- From inside, tracked flow: sent with the flow's port. -/
  | known (q : Packet) : isTcpUdp p → p.device ≠ c.wanDevice → Live c s p.time (flow p) →
      Outbound c p q (s.port (flow p)) →
      Step c s p [.transmit q (1 - p.device) true] ⟨Expiring.touch c.exp p.time s.flows (flow p), s.port⟩
  /-- From inside, new flow, there is room: sent with a port no live flow has. -/
  | new (q : Packet) (port : Nat) : isTcpUdp p → p.device ≠ c.wanDevice → ¬ Live c s p.time (flow p) →
      (Expiring.live c.exp p.time s.flows).length < c.size →
      (∀ f, Live c s p.time f → s.port f ≠ port) → Outbound c p q port →
      Step c s p [.transmit q (1 - p.device) true]
        ⟨Expiring.touch c.exp p.time s.flows (flow p), fun f => if f = flow p then port else s.port f⟩
  /-- From inside, new flow, no room: dropped. -/
  | full : isTcpUdp p → p.device ≠ c.wanDevice → ¬ Live c s p.time (flow p) →
      c.size ≤ (Expiring.live c.exp p.time s.flows).length →
      Step c s p [] ⟨Expiring.live c.exp p.time s.flows, s.port⟩
  /-- From outside, to the port of a live flow, from its peer: delivered. -/
  | deliver (q : Packet) (f : Flow) : isTcpUdp p → p.device = c.wanDevice → Live c s p.time f →
      s.port f = word p 36 → FromPeer p f → Inbound p q f →
      Step c s p [.transmit q (1 - p.device) true] ⟨Expiring.touch c.exp p.time s.flows f, s.port⟩
  /-- From outside, to the port of a live flow, not from its peer: dropped. The use is
  still counted (as nat.c does). -/
  | spoof (f : Flow) : isTcpUdp p → p.device = c.wanDevice → Live c s p.time f →
      s.port f = word p 36 → ¬ FromPeer p f →
      Step c s p [] ⟨Expiring.touch c.exp p.time s.flows f, s.port⟩
  /-- From outside, to a port no live flow has: dropped. -/
  | unknown : isTcpUdp p → p.device = c.wanDevice → (∀ f, Live c s p.time f → s.port f ≠ word p 36) →
      Step c s p [] s

inductive Run (c : Config) : State → List Packet → List (List Out) → State → Prop
  | nil (s) : Run c s [] [] s
  | cons {s s' s'' p o ps os} : Step c s p o s' → Run c s' ps os s'' → Run c s (p :: ps) (o :: os) s''

end Verif.NatSpec
