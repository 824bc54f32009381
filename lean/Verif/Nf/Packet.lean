/-
Packets and header access: /repo/env/include/net/packet.h and the transmit calls
of /repo/env/include/net/tx.h.

Simplifications (whole file):
* The packet buffer is a function from offset to byte: the header accessors do not
  check the packet length, and the runtime's buffers are large enough for the
  headers.
* Header pointers are offsets into the packet buffer.
* Little-endian loads (x86-64), as natural numbers.
* A call of net_transmit/net_flood/net_flood_except is recorded as an output event
  with the packet at that moment; the runtime side is modelled in Verif.Nf.Runtime.
-/
import Verif.Env.Memory

set_option autoImplicit false

namespace Verif.Nf

/-- packet.h:16-24 `struct net_packet`. -/
structure Packet where
  data : Mem
  length : Nat
  time : Nat
  device : Nat

/-- Little-endian 16-bit load. -/
def ld16 (m : Mem) (a : Nat) : Nat := (m a).toNat + 256 * (m (a + 1)).toNat

/-- Little-endian 32-bit load. -/
def ld32 (m : Mem) (a : Nat) : Nat := ld16 m a + 65536 * ld16 m (a + 2)

/-- 16-bit store. -/
def st16 (m : Mem) (a v : Nat) : Mem :=
  fun x => if x = a then UInt8.ofNat v else if x = a + 1 then UInt8.ofNat (v / 256) else m x

/-- 32-bit store. -/
def st32 (m : Mem) (a v : Nat) : Mem := st16 (st16 m a v) (a + 2) (v / 65536)

/-- `sizeof(struct net_ether_header)`, packet.h:32-36. -/
def etherSize : Nat := 14
/-- `sizeof(struct net_ipv4_header)`, packet.h:39-51. -/
def ipv4Size : Nat := 20

/-- packet.h:60-65 `net_get_ether_header`; never fails. -/
def getEtherHeader (_ : Packet) : Nat := 0

/-- packet.h:68-73 `net_get_ipv4_header`; the ether type is at offset 12. -/
def getIpv4Header (m : Mem) (ether : Nat) : Option Nat :=
  if ld16 m (ether + 12) = 0x0008 then some (ether + etherSize) else none

/-- packet.h:84-89 `net_get_tcpudp_header`; the protocol is at offset 9. -/
def getTcpudpHeader (m : Mem) (ipv4 : Nat) : Option Nat :=
  if (m (ipv4 + 9)).toNat = 6 ∨ (m (ipv4 + 9)).toNat = 17 then some (ipv4 + ipv4Size) else none

/-- nat/flow_table.h:12-19, firewall/flow_table.h:12-19, maglev/balancer.h:14-21 `struct flow`. -/
structure Flow where
  srcIp : Nat
  dstIp : Nat
  srcPort : Nat
  dstPort : Nat
  protocol : Nat
deriving DecidableEq, Repr

/-- The all-zero flow in freshly allocated memory. -/
def Flow.zero : Flow := ⟨0, 0, 0, 0, 0⟩

/-- Output events. -/
inductive Out where
  | transmit (p : Packet) (device : Nat) (updateAddrs : Bool)
  | flood (p : Packet) (updateAddrs : Bool)
  | floodExcept (p : Packet) (disabled : List Bool) (updateAddrs : Bool)

/-- `1 - packet->device` converted to `device_t` (uint16_t). -/
def otherDevice (p : Packet) : Nat := (65536 + 1 - p.device) % 65536

end Verif.Nf
