/-
Model of the checksum helpers of /repo/env/include/net/packet.h:98-130.
-/
import Verif.Nf.Packet

set_option autoImplicit false

namespace Verif.Nf

/-- packet.h:105, `~(~c + ~old_word + new_word)` in `int`, stored to `uint16_t`. -/
def checksumWord (c oldWord newWord : Nat) : Nat :=
  (~~~(~~~(BitVec.ofNat 32 c) + ~~~(BitVec.ofNat 32 oldWord) + BitVec.ofNat 32 newWord)).toNat % 65536

/-- packet.h:99-106 `net_checksum_update`. -/
def checksumUpdate (m : Mem) (ptr oldWord newWord : Nat) : Mem :=
  st16 m ptr (checksumWord (ld16 m ptr) oldWord newWord)

/-- packet.h:109-123 `net_packet_checksum_update`; `ip` is the header's offset. -/
def packetChecksumUpdate (m : Mem) (ip oldWord newWord : Nat) (inIp : Bool) : Mem :=
  let m := if inIp then checksumUpdate m (ip + 12) oldWord newWord else m
  let l4 := ip + ipv4Size
  if (m (ip + 9)).toNat = 6 then checksumUpdate m (l4 + 16) oldWord newWord
  else if (m (ip + 9)).toNat = 17 then checksumUpdate m (l4 + 6) oldWord newWord
  else m

/-- packet.h:126-130 `net_packet_checksum_update_32`. -/
def packetChecksumUpdate32 (m : Mem) (ip oldWord newWord : Nat) (inIp : Bool) : Mem :=
  let m := packetChecksumUpdate m ip (oldWord % 65536) (newWord % 65536) inIp
  packetChecksumUpdate m ip (oldWord / 65536 % 65536) (newWord / 65536 % 65536) inIp

end Verif.Nf
