/-
Independent reading of Ethernet/IPv4/TCP/UDP headers, by absolute byte offsets
(IEEE 802.3, RFC 791, RFC 793/768), as the specifications' typed packet view.
Multi-byte fields are compared and copied but never interpreted, so they are read
in memory order.
-/
import Verif.Nf.Packet

set_option autoImplicit false

namespace Verif.PacketSpec
open Verif.Nf (Packet Flow)

/-- Byte `i` of the packet. -/
def byte (p : Packet) (i : Nat) : Nat := (p.data i).toNat

def word (p : Packet) (i : Nat) : Nat := byte p i + 256 * byte p (i + 1)
def dword (p : Packet) (i : Nat) : Nat :=
  byte p i + 256 * byte p (i + 1) + 65536 * byte p (i + 2) + 16777216 * byte p (i + 3)

/-- EtherType 0x0800, most significant byte first. -/
def isIpv4 (p : Packet) : Prop := byte p 12 = 0x08 ∧ byte p 13 = 0x00
/-- IPv4 protocol TCP (6) or UDP (17). -/
def isTcpUdp (p : Packet) : Prop := isIpv4 p ∧ (byte p 23 = 6 ∨ byte p 23 = 17)

instance (p : Packet) : Decidable (isIpv4 p) := inferInstanceAs (Decidable (_ ∧ _))
instance (p : Packet) : Decidable (isTcpUdp p) := inferInstanceAs (Decidable (_ ∧ _))

/-- The flow of a TCP/UDP packet, seen from its sender. -/
def flow (p : Packet) : Flow :=
  { srcIp := dword p 26, dstIp := dword p 30, srcPort := word p 34, dstPort := word p 36, protocol := byte p 23 }

/-- The flow seen from the receiver. -/
def reverse (f : Flow) : Flow :=
  { srcIp := f.dstIp, dstIp := f.srcIp, srcPort := f.dstPort, dstPort := f.srcPort, protocol := f.protocol }

end Verif.PacketSpec
