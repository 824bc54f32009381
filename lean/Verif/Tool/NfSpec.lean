/-
Model of the specifications shipped with the network functions (/repo/nf/*/spec.py), of the
parts of /repo/tool/klint/verif/spec_prefix.py and spec_utils.py they call, and of what the
tool gives them: the packet, the configuration, the transmitted packet and the maps before
and after the packet.

Simplifications (whole file):
* Values are concrete: the specification is evaluated on one packet and one pair of states,
  instead of symbolically on all of them at once.
* A raised exception or a failed assertion inside a helper is the result `none`; the value
  of a specification is the conjunction of its `assert`s.
* A specification map is fixed to the data structure meant by the specification's author; the
  tool instead searches all maps for some assignment that works (modelled in Verif.Tool.Symbex).
* Bit vectors are numbers. An operation of value_proxy.py:57-88 truncates the right operand to
  the width of the left one; this is written `% 2 ^ w` where the right operand is wider.
* `exists` (spec_prefix.py:80-85) is a real existential quantifier.
-/
import Verif.Nf.TableProofs
import Verif.Nf.Packet
import Verif.Nf.Bridge
import Verif.Nf.Maglev
import Verif.Nf.Nat
import Verif.Spec.Lpm

set_option autoImplicit false

namespace Verif.NfSpec
open Verif.Nf

/-! ### spec_prefix.py -/

/-- Does a specification hold? -/
def Holds (r : Option Prop) : Prop := ∃ q, r = some q ∧ q

/-- spec_prefix.py:101-153 `Map`: contents and length of one version of a map. -/
structure PyMap (K V : Type) where
  get : K → Option V
  length : Nat

/-- spec_prefix.py:136-138 `Map.__contains__`. -/
def PyMap.has {K V : Type} (m : PyMap K V) (k : K) : Bool := (m.get k).isSome

/-- spec_prefix.py:147-148 `Map.forall`. -/
def PyMap.all {K V : Type} (m : PyMap K V) (pred : K → V → Prop) : Prop := ∀ k v, m.get k = some v → pred k v

/-- PACKET_MTU of externals/net/packet.py:9: the packet's buffer, and hence its map, has this many bytes
whatever its length (packet.py:32). -/
def MTU : Nat := 1514

/-- `n` bytes of the packet from `index` on, as read in spec_prefix.py:287-295. -/
def chunks (p : Packet) (index : Nat) : Nat → Nat
  | 0 => 0
  | n + 1 => chunks p index n + 2 ^ (8 * n) * (p.data (index + n)).toNat

/-- spec_prefix.py:269-300 `_SpecPacketHeader.__getattr__`: the fields are laid out one after
the other from bit `offset` on. -/
def getattr (p : Packet) (offset : Nat) : List (String × Nat) → String → Option Nat
  | [], _ => none
  | (name, size) :: rest, attr =>
    if name = attr then
      let n := (size + offset % 8 + 7) / 8
      if offset / 8 + n ≤ MTU then some (chunks p (offset / 8) n / 2 ^ (offset % 8) % 2 ^ size) else none
    else getattr p (offset + size) rest attr

/-- spec_prefix.py:262-267 `_SpecPacketHeader`. -/
structure Header where
  packet : Packet
  offset : Nat
  attrs : List (String × Nat)

def Header.get (h : Header) (attr : String) : Option Nat := getattr h.packet h.offset h.attrs attr

/-- spec_prefix.py:336-342 `ether`. -/
def ether (p : Packet) : Header := ⟨p, 0, [("dst", 48), ("src", 48), ("type", 16)]⟩

/-- spec_prefix.py:344-362 `ipv4`. -/
def ipv4 (p : Packet) : Option (Option Header) := do
  let type ← (ether p).get "type"
  if type = 0x0008 then
    some (some ⟨p, 48 + 48 + 16, [("ihl", 4), ("version", 4), ("dscp", 6), ("ecn", 2), ("total_length", 16),
      ("identification", 16), ("flags", 3), ("fragment_offset", 13), ("time_to_live", 8), ("protocol", 8),
      ("checksum", 16), ("src", 32), ("dst", 32)]⟩)
  else some none

/-- spec_prefix.py:364-371 `tcpudp`. -/
def tcpudp (p : Packet) : Option (Option Header) := do
  match ← ipv4 p with
  | none => some none
  | some ip =>
    let protocol ← ip.get "protocol"
    if protocol = 6 ∨ protocol = 17 then
      some (some ⟨p, (48 + 48 + 16) + (8 + 8 + 16 + 16 + 16 + 8 + 8 + 16 + 32 + 32), [("src", 16), ("dst", 16)]⟩)
    else some none

/-- spec_prefix.py:310-316 `_SpecPacketData.__eq__`. -/
def sameData (p q : Packet) : Prop := ∀ i < MTU, p.data i = q.data i

/-- spec_prefix.py:235-256: the devices a packet is sent to. -/
inductive Devices where
  | single (device : Nat)
  | flooded (orig count : Nat)

/-- spec_prefix.py:240-241, 251-252 `__contains__`. -/
def Devices.has : Devices → Nat → Prop
  | .single d, item => item = d
  | .flooded orig _, item => item ≠ orig

/-- spec_prefix.py:243-245, 254-256 `length`. -/
def Devices.length : Devices → Nat
  | .single _ => 1
  | .flooded _ count => count - 1

/-- A transmitted packet, as far as the specifications look at it (spec_prefix.py:318-375). -/
structure Sent where
  packet : Packet
  devices : Devices

/-- spec_prefix.py:326-330 `_SpecPacket.device`. -/
def Sent.device (t : Sent) : Option Nat :=
  match t.devices with
  | .single d => some d
  | .flooded _ _ => none

/-- externals/net/tx.py:11-50 and spec_prefix.py:396-405: the transmitted packet that the
specification sees; more than one raises. The devices excluded from a flood are not looked at. -/
def transmitted (count : Nat) : List Out → Option (Option Sent)
  | [] => some none
  | [.transmit p d _] => some (some ⟨p, .single d⟩)
  | [.flood p _] => some (some ⟨p, .flooded p.device count⟩)
  | [.floodExcept p _ _] => some (some ⟨p, .flooded p.device count⟩)
  | _ => none

/-- The verdict that the tool should reach: the outputs of a call of nf_handle keep a specification
(spec_prefix.py:389-409, `assert` of the specification). -/
def Keeps (count : Nat) (outs : List Out) (spec : Option Sent → Option Prop) : Prop :=
  ∃ tx, transmitted count outs = some tx ∧ Holds (spec tx)

/-! ### spec_utils.py -/

/-- spec_utils.py:7-15 `ExpiringSet`. -/
structure ExpiringSet (K : Type) where
  expiration : Nat
  capacity : Nat
  time : Nat
  elemsToIndices : PyMap K Nat
  indicesToElems : PyMap Nat K
  indicesToTimes : PyMap Nat Nat

/-- 64-bit subtraction. -/
def sub64 (a b : Nat) : Nat := (2 ^ 64 + a - b) % 2 ^ 64

variable {K : Type}

/-- spec_utils.py:22-25 `full`. -/
def ExpiringSet.full (s : ExpiringSet K) : Prop :=
  s.elemsToIndices.length = s.capacity ∧
    s.indicesToTimes.all fun _ v => s.time < s.expiration ∨ sub64 s.time s.expiration ≤ v

/-- spec_utils.py:27-30 `did_refresh`. -/
def ExpiringSet.didRefresh (s : ExpiringSet K) (item : K) : Option Bool :=
  match s.elemsToIndices.get item with
  | none => some false
  | some i => do
    let t ← s.indicesToTimes.get i
    some (decide (t = s.time))

/-- spec_utils.py:32-41 `get_by_index`. -/
def ExpiringSet.getByIndex (s : ExpiringSet K) (index : Nat) : Option (Option K) :=
  match s.indicesToTimes.get index with
  | none => some none
  | some t =>
    if s.time ≥ s.expiration ∧ sub64 s.time s.expiration > t then some none
    else match s.indicesToElems.get index with
      | none => some none
      | some elem => do
        let i ← s.elemsToIndices.get elem
        if index = i then some (some elem) else none

/-- spec_utils.py:43-46 `get_index`. -/
def ExpiringSet.getIndex (s : ExpiringSet K) (item : K) : Option Nat := s.elemsToIndices.get item

/-- spec_utils.py:48-51 `__contains__`. -/
def ExpiringSet.has (s : ExpiringSet K) (item : K) : Option Bool :=
  match s.elemsToIndices.get item with
  | none => some false
  | some i => do
    let t ← s.indicesToTimes.get i
    some (decide (s.time < s.expiration ∨ sub64 s.time s.expiration ≤ t))

/-- The maps of a table of keys, map and index pool: `struct map`'s values (map.h:13), the
array of keys and the pool's items (index_pool.h). -/
abbrev expiringSet [DecidableEq K] (expiration capacity time : Nat) (tb : Table K) : ExpiringSet K where
  expiration := expiration
  capacity := capacity
  time := time
  elemsToIndices := ⟨tb.map.values.get, tb.map.values.length⟩
  indicesToElems := ⟨fun i => tb.keys[i]?, tb.keys.length⟩
  indicesToTimes := ⟨stamp tb.pool, (tb.pool.timestamps.filter (· ≠ IndexPool.TIME_MAX)).length⟩

/-! ### The specifications -/

/-- The `Flow` dictionaries `{'src_ip': ip.src, …}` of the specifications, e.g. firewall/spec.py:33-39. -/
def flowOf (ip l4 : Header) : Option Flow := do
  some { srcIp := ← ip.get "src", dstIp := ← ip.get "dst", srcPort := ← l4.get "src", dstPort := ← l4.get "dst",
         protocol := ← ip.get "protocol" }

/-- The dictionary with both ends exchanged, firewall/spec.py:19-25. -/
def flowBack (ip l4 : Header) : Option Flow := do
  some { srcIp := ← ip.get "dst", dstIp := ← ip.get "src", srcPort := ← l4.get "dst", dstPort := ← l4.get "src",
         protocol := ← ip.get "protocol" }

/-- `1 - packet.device`, 16 bits. -/
def otherSide (p : Packet) : Nat := (2 ^ 16 + 1 - p.device) % 2 ^ 16

/-- firewall/spec.py:44-46. -/
def sentAcross (p : Packet) (tx : Option Sent) : Option Prop :=
  match tx with
  | none => some False
  | some t => do
    let d ← t.device
    some (sameData t.packet p ∧ d = otherSide p)

/-- firewall/spec.py:11-46; `old`, `new` are the flows before and after the packet. -/
def firewall (externalDevice : Nat) (old new : ExpiringSet Flow) (p : Packet) (tx : Option Sent) : Option Prop := do
  let ip ← ipv4 p
  let l4 ← tcpudp p
  match ip, l4 with
  | some ip, some l4 =>
    if p.device = externalDevice % 2 ^ 16 then do
      let flow ← flowBack ip l4
      let known ← old.has flow
      if known then do
        let refreshed ← new.didRefresh flow
        let sent ← sentAcross p tx
        some (refreshed = true ∧ sent)
      else some (tx.isNone = true)
    else do
      let flow ← flowOf ip l4
      let known ← new.has flow
      let sent ← sentAcross p tx
      some ((known = false → old.full) ∧ sent)
  | _, _ => some (tx.isNone = true)

/-- firewall/spec-small.py:1-20; `old` are the keys of the table before the packet. -/
def firewallSmall (externalDevice : Nat) (old : PyMap Flow Nat) (p : Packet) (tx : Option Sent) : Option Prop := do
  let ip ← ipv4 p
  let l4 ← tcpudp p
  match ip, l4 with
  | some ip, some l4 =>
    if p.device = externalDevice % 2 ^ 16 then do
      let flow ← flowBack ip l4
      match tx with
      | none => some True
      | some t => do
        let d ← t.device
        some (old.has flow = true ∧ sameData t.packet p ∧ d = otherSide p)
    else some True
  | _, _ => some (tx.isNone = true)

/-- nat/spec.py:29-30, 49. -/
def natInbound (flow : Flow) (p : Packet) (tx : Option Sent) : Option Prop := do
  let t ← tx
  let ip ← (← ipv4 t.packet)
  let l4 ← (← tcpudp t.packet)
  let dstIp ← ip.get "dst"
  let dstPort ← l4.get "dst"
  let d ← t.device
  some (dstIp = flow.srcIp ∧ dstPort = flow.srcPort ∧ d = otherSide p)

/-- nat/spec.py:45-46, 49. -/
def natOutbound (externalAddr startPort index : Nat) (p : Packet) (tx : Option Sent) : Option Prop := do
  let t ← tx
  let ip ← (← ipv4 t.packet)
  let l4 ← (← tcpudp t.packet)
  let srcIp ← ip.get "src"
  let srcPort ← l4.get "src"
  let d ← t.device
  some (srcIp = externalAddr % 2 ^ 32 ∧ srcPort = (startPort + index) % 2 ^ 64 % 2 ^ 16 ∧ d = otherSide p)

/-- nat/spec.py:11-49. -/
def nat (wanDevice externalAddr startPort : Nat) (old new : ExpiringSet Flow) (p : Packet) (tx : Option Sent) :
    Option Prop := do
  let ip ← ipv4 p
  let l4 ← tcpudp p
  match ip, l4 with
  | some ip, some l4 =>
    if p.device = wanDevice % 2 ^ 16 then do
      let dst ← l4.get "dst"
      match ← old.getByIndex ((2 ^ 16 + dst - startPort % 2 ^ 16) % 2 ^ 16) with
      | none => some (tx.isNone = true)
      | some flow =>
        let srcIp ← ip.get "src"
        let srcPort ← l4.get "src"
        let protocol ← ip.get "protocol"
        if flow.dstIp ≠ srcIp ∨ flow.dstPort ≠ srcPort ∨ flow.protocol ≠ protocol then some (tx.isNone = true)
        else do
          let refreshed ← new.didRefresh flow
          let sent ← natInbound flow p tx
          some (refreshed = true ∧ sent)
    else do
      let flow ← flowOf ip l4
      if ← new.has flow then do
        let index ← new.getIndex flow
        natOutbound externalAddr startPort index p tx
      else some (old.full ∧ tx.isNone = true)
  | _, _ => some (tx.isNone = true)

/-- maglev/spec.py:12-39. `backends` is the map after the packet. -/
def maglev (count : Nat) (old new : ExpiringSet Flow) (backends : PyMap Nat Nat) (p : Packet) (tx : Option Sent) :
    Option Prop := do
  let ip ← ipv4 p
  let l4 ← tcpudp p
  match ip, l4 with
  | some ip, some l4 =>
    if p.device = count - 1 then do
      let flow ← flowOf ip l4
      match tx with
      | none => some (backends.all fun k _ => k < 0 ∨ k ≥ count - 1)
      | some t => do
        let known ← new.has flow
        some ((known = false → old.full) ∧ sameData t.packet p)
    else do
      let time ← backends.get p.device
      some (time = p.time)
  | _, _ => some (tx.isNone = true)

/-- policer/spec.py:1-10, rust-policer/spec.py. -/
def policer (wanDevice : Nat) (p : Packet) (tx : Option Sent) : Option Prop := do
  match ← ipv4 p with
  | none => some (tx.isNone = true)
  | some _ => if p.device = wanDevice % 2 ^ 16 then some True else some (tx.isNone = false)

/-- nop/spec.py:1-5. -/
def nop (wan lan : Nat) (p : Packet) (tx : Option Sent) : Option Prop := do
  let t ← tx
  let d ← t.device
  if p.device = wan % 2 ^ 16 then some (d = lan % 2 ^ 16) else some (d = wan % 2 ^ 16)

/-- bridge/spec.py:12-45: `oldUpdate`, `newUpdate` are the cell's `update_time` before and after
the packet, `db` the addresses after it. -/
def bridge (count updateTime oldUpdate newUpdate : Nat) (db : PyMap Nat Nat) (p : Packet) (tx : Option Sent) :
    Option Prop := do
  let dst ← (ether p).get "dst"
  if p.time > (oldUpdate + updateTime) % 2 ^ 64 then some (newUpdate = p.time)
  else if dst = 0x000000C28001 then some True
  else
    match tx with
    | none => some (db.has dst = true)
    | some t => some (¬ t.devices.has p.device ∧ (db.has dst = false → t.devices.length = count - 1))

/-- router/spec.py:9-11 `matches`; the shift amount is truncated to the 32 bits of the address. -/
def routeMatches (length dest ip : Nat) : Prop :=
  dest / 2 ^ (sub64 32 length % 2 ^ 32) = ip / 2 ^ (sub64 32 length % 2 ^ 32)

/-- The router's table as a map from (length, destination) to device, externals/structs/lpm.py:29, 59. -/
def routeMap (t : LpmSpec.Table) : PyMap (Nat × Nat) Nat where
  get := fun k => (t.find? fun r => decide (r.length = k.1 ∧ r.dest = k.2)).map LpmSpec.Route.device
  length := t.length

/-- router/spec.py:50-58. -/
def routed (table : PyMap (Nat × Nat) Nat) (dst : Nat) : Option Nat → Prop
  | none => table.all fun k _ => ¬ routeMatches k.1 k.2 dst
  | some d => ∃ r : Nat × Nat, table.has r = true ∧ routeMatches r.1 r.2 dst ∧
      table.all fun k v => ¬ routeMatches k.1 k.2 dst ∨ k.1 < r.1 ∨ v = d

/-- router/spec.py:45-47, 52-58: what is asserted of a forwarded packet. -/
def forwarded (table : PyMap (Nat × Nat) Nat) (dst : Nat) (t : Sent) : Option Prop := do
  let ip ← (← ipv4 t.packet)
  let ttl ← ip.get "time_to_live"
  let d ← t.device
  some (ttl > 0 ∧ routed table dst (some d))

/-- router/spec.py:14-58. `ipv4_checksum` returns the header's own checksum (spec_prefix.py:383-384),
so that comparison is never true. -/
def router (count : Nat) (table : PyMap (Nat × Nat) Nat) (p : Packet) (tx : Option Sent) : Option Prop := do
  if p.device = count - 1 then some True
  else
    match ← ipv4 p with
    | none => some (tx.isNone = true)
    | some ip =>
      let checksum ← ip.get "checksum"
      let version ← ip.get "version"
      let ihl ← ip.get "ihl"
      let total ← ip.get "total_length"
      if checksum ≠ checksum ∨ version ≠ 4 ∨ ihl < 5 ∨ total / 4 < ihl then some (tx.isNone = true)
      else do
        let ttl ← ip.get "time_to_live"
        if ttl = 0 then some (tx.isNone = true)
        else do
          let dst ← ip.get "dst"
          match tx with
          | none => some (routed table dst none)
          | some t => forwarded table dst t

end Verif.NfSpec
