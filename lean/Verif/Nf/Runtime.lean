/-
Model of the packet runtime: /repo/env/src/net/tinynf/main.c:15-60 and the part of
/repo/env/src/net/tinynf/ixgbe.c that assigns outputs to devices and sends them.

`lengths` is the agent's array of output lengths (0 = do not send); an out-of-bounds
access is the result `none`. All outputs send the same buffer, after the handler
returned. There are at most 65536 devices (device_t is 16 bits wide), so the
conversions between size_t and device_t are exact.
-/
import Verif.Nf.Packet

set_option autoImplicit false

namespace Verif.Nf.Runtime

/-- main.c:15 `index_from_device`; `input` is packet->device. -/
def indexFromDevice (input device : Nat) : Nat := if device > input then device - 1 else device

/-- main.c:17 `device_from_index`. -/
def deviceFromIndex (input index : Nat) : Nat := if index < input then index else index + 1

/-- The addresses main.c:80-91 fills in. -/
structure Macs where
  endpoint : List (List UInt8)
  device : List (List UInt8)

/-- Store a six-byte address. -/
def stMac (m : Mem) (a : Nat) (mac : List UInt8) : Mem :=
  fun x => if a ≤ x ∧ x < a + 6 then (mac[x - a]?).getD 0 else m x

/-- main.c:19-26 `handle_flags`. -/
def handleFlags (macs : Macs) (m : Mem) (device : Nat) (update : Bool) : Option Mem :=
  if update then do
    let dst ← macs.endpoint[device]?
    let src ← macs.device[device]?
    some (stMac (stMac m 0 dst) 6 src)
  else some m

/-- A checked array store. -/
def store (l : List Nat) (i v : Nat) : Option (List Nat) := if i < l.length then some (l.set i v) else none

/-- main.c:28-32 `net_transmit`. -/
def netTransmit (macs : Macs) (input : Nat) (m : Mem) (lengths : List Nat) (length device : Nat) (update : Bool) :
    Option (Mem × List Nat) := do
  let m ← handleFlags macs m device update
  let lengths ← store lengths (indexFromDevice input device) length
  some (m, lengths)

/-- main.c:47, `disabled_devices[device]`; net_flood has no such array. -/
def isOff (disabled : Option (List Bool)) (device : Nat) : Option Bool :=
  match disabled with
  | none => some false
  | some d => d[device]?

/-- main.c:36-39, 44-48: the loop of the flooding functions from iteration `n` on, for
`k` more iterations. `disabled` is the array given to net_flood_except. -/
def floodLoop (macs : Macs) (input length : Nat) (update : Bool) (disabled : Option (List Bool)) :
    (k n : Nat) → Mem → List Nat → Option (Mem × List Nat)
  | 0, _, m, lengths => some (m, lengths)
  | k + 1, n, m, lengths => do
    let device := deviceFromIndex input n
    let m ← handleFlags macs m device update
    let off ← isOff disabled device
    let lengths ← store lengths n (if off then 0 else length)
    floodLoop macs input length update disabled k (n + 1) m lengths

/-- One call of tx.h, given the buffer and the lengths so far. -/
def emit (macs : Macs) (devicesCount : Nat) (lengths : List Nat) : Out → Option (Mem × List Nat)
  | .transmit p device update => netTransmit macs p.device p.data lengths p.length device update
  | .flood p update => floodLoop macs p.device p.length update none (devicesCount - 1) 0 p.data lengths
  | .floodExcept p disabled update =>
    floodLoop macs p.device p.length update (some disabled) (devicesCount - 1) 0 p.data lengths

/-- ixgbe.c:1160-1165, in `tn_agent_init`: the output of device `n`, none for the input. -/
def outputOf (input n : Nat) : Option Nat := if n ≠ input then some (if n > input then n - 1 else n) else none

/-- ixgbe.c:1232-1235: the length sent on a device after the handler returned; none if
nothing is sent. "Descriptors with zero length transfer no data" (ixgbe.c:1199). -/
def sent (input : Nat) (lengths : List Nat) (device : Nat) : Option Nat :=
  match outputOf input device with
  | none => none
  | some i => match lengths[i]? with
    | none => none
    | some l => if l = 0 then none else some l

end Verif.Nf.Runtime
