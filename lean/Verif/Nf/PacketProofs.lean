/- The accessors of packet.h read the fields the specifications name. -/
import Verif.Spec.Packet
import Verif.Base

set_option autoImplicit false

namespace Verif.Nf
open Verif.PacketSpec

theorem ld16_word (p : Packet) (a : Nat) : ld16 p.data a = word p a := rfl

theorem ld32_dword (p : Packet) (a : Nat) : ld32 p.data a = dword p a := by
  simp only [ld32, ld16, dword, byte, Nat.add_assoc]; ring

theorem getIpv4Header_eq (p : Packet) :
    getIpv4Header p.data (getEtherHeader p) = if isIpv4 p then some 14 else none := by
  simp only [getIpv4Header, getEtherHeader, etherSize, ld16]
  have h1 : (p.data 12).toNat < 256 := UInt8.toNat_lt _
  have h2 : (p.data 13).toNat < 256 := UInt8.toNat_lt _
  congr 1
  simp only [isIpv4, byte, eq_iff_iff]
  simp only [show 0 + 12 = 12 from rfl, show 12 + 1 = 13 from rfl]
  omega

theorem getTcpudpHeader_eq (p : Packet) (h : isIpv4 p) :
    getTcpudpHeader p.data 14 = if isTcpUdp p then some 34 else none := by
  simp only [getTcpudpHeader, ipv4Size, isTcpUdp, h, true_and, byte]

end Verif.Nf
