/-
Model of /repo/nf/router/router.c and /repo/nf/nop/nop.c. The longest prefix match
structure is its contract (Verif.Spec.Lpm): `search` is any implementation of
lpm_search, and calling lpm_set without its precondition is the result `none`.
-/
import Verif.Nf.Packet
import Verif.Spec.Lpm

set_option autoImplicit false

namespace Verif.Nf.Router
open Verif.LpmSpec (Table)

/-- Little-endian 64-bit load. -/
def ld64 (m : Mem) (a : Nat) : Nat := ld32 m a + 4294967296 * ld32 m (a + 4)

/-- packet.h:92-96 `net_ipv4_checksum_valid`: a stub. -/
def checksumValid (_ : Mem) (_ : Nat) : Bool := true

/-- router.c:24-33: a packet of the management interface. -/
def manage (cap : Nat) (t : Table) (m : Mem) : Option Table :=
  let key := ld32 m 0
  let width := ld64 m 4
  if width > 32 then some t
  else
    let value := ld16 m 12
    if LpmSpec.setPre t key width then some (LpmSpec.set cap t key width value) else none

/-- router.c:35-70: the routing of other packets. -/
def route (search : Table → Nat → Option Nat) (t : Table) (p : Packet) : List Out :=
  let m := p.data
  match getIpv4Header m (getEtherHeader p) with
  | none => []
  | some ip =>
    if (m ip).toNat / 16 ≠ 4 then []
    else if (m ip).toNat % 16 < 5 then []
    else if ld16 m (ip + 2) < (m ip).toNat % 16 * 4 then []
    else if !checksumValid m ip then []
    else if (m (ip + 8)).toNat = 0 then []
    else match search t (ld32 m (ip + 16)) with
      | some d => [.transmit p d true]
      | none => []

/-- router.c:21-71 `nf_handle`. -/
def handle (search : Table → Nat → Option Nat) (devicesCount cap : Nat) (t : Table) (p : Packet) : Option (Table × List Out) :=
  if p.device = devicesCount - 1 then (manage cap t p.data).map fun t => (t, [])
  else some (t, route search t p)

/-- A packet sequence. -/
def run (search : Table → Nat → Option Nat) (devicesCount cap : Nat) : Table → List Packet → Option (Table × List (List Out))
  | t, [] => some (t, [])
  | t, p :: ps => do
    let (t, o) ← handle search devicesCount cap t p
    let (t, os) ← run search devicesCount cap t ps
    some (t, o :: os)

end Verif.Nf.Router

namespace Verif.Nf.Nop

/-- nop.c:6-9 `nf_init`; os_config_get_device accepts devices below the count. -/
def init (devicesCount wan lan : Nat) : Option (Nat × Nat) :=
  if wan < devicesCount ∧ lan < devicesCount ∧ lan ≠ wan then some (wan, lan) else none

/-- nop.c:11-15 `nf_handle`. -/
def handle (wan lan : Nat) (p : Packet) : List Out :=
  [.transmit p (if p.device = wan then lan else wan) true]

end Verif.Nf.Nop
