/-
The network functions of /repo/nf on the code of their data structures: the keys are bytes
in memory, the map is the code of map.c (Verif.Env.HashMap), hashing and comparing bytes as
os_memory_hash and os_memory_eq do, and the pool is the code of index_pool.c.
Verif.Nf.Table and the models built on it use the contract of the map instead.

Simplifications (whole file):
* The array of keys, the packet buffer and the local variable `flow` are ranges of one
  memory. The headers are read from the packet as in Verif.Nf.Packet; pointers into it that
  are given to the map point to the bytes in memory.
* A struct is its bytes, in the order of its fields, which have no gaps; assigning a struct
  copies them all, since the padding is a named field.
* Arrays that hold no keys are lists, as in the other models.
* An out-of-bounds access is the result `none`.
-/
import Verif.Env.HashMap
import Verif.Nf.Firewall
import Verif.Nf.Nat
import Verif.Nf.Policer
import Verif.Nf.Bridge
import Verif.Nf.Maglev

set_option autoImplicit false

namespace Verif.Nf.Low
open Verif.IndexPool

/-- /repo/env/include/os/memory.h:72-127 `os_memory_hash`. -/
abbrev hash : HashMap.HashFn := fun m a n => (Memory.hash m a n).toNat

/-- Where things are in memory. -/
structure Layout where
  /-- Address of the array of keys. -/
  keys : Nat
  /-- Size of a key. -/
  ks : Nat
  /-- Number of keys. -/
  size : Nat
  /-- Address of the packet buffer. -/
  pkt : Nat
  /-- Address of the local variable `flow`. -/
  loc : Nat

/-- The address of a key, `&(keys[i])`. -/
def Layout.cell (l : Layout) (i : Nat) : Nat := l.keys + l.ks * i

/-- /repo/env/src/net/tinynf/ixgbe.c:335 `PACKET_BUFFER_SIZE`. -/
def bufferSize : Nat := 2048

/-- Memory, map and pool. -/
structure State where
  mem : Mem
  map : HashMap.Map
  pool : Pool

/-- Store some bytes. -/
def store (m : Mem) (a : Nat) (n : Nat) (b : Nat → UInt8) : Mem := fun x => if a ≤ x ∧ x < a + n then b (x - a) else m x

/-- The allocations of e.g. firewall/flow_table.h:30-32; the memory is zeroed (memory.h:27). -/
def alloc (l : Layout) (mem : Mem) (exp : Nat) : Option State := do
  let map ← HashMap.alloc l.ks l.size
  let pool ← IndexPool.alloc l.size exp
  some ⟨store mem l.keys (l.ks * l.size) fun _ => 0, map, pool⟩

/-- The driver puts the packet in the buffer. -/
def receive (l : Layout) (s : State) (p : Packet) : State := { s with mem := store s.mem l.pkt bufferSize p.data }

/-- `keys[index] = *key`. -/
def assign (l : Layout) (m : Mem) (i kp : Nat) : Option Mem :=
  if i < l.size then some (store m (l.cell i) l.ks fun j => m (kp + j)) else none

/-- map_get. -/
def get (s : State) (kp : Nat) : Option (Option Nat) := HashMap.get hash s.mem s.map kp

/-- index_pool_refresh. -/
def refresh (s : State) (time i : Nat) : Option State := do
  let pool ← IndexPool.refresh s.pool time i
  some { s with pool := pool }

/-- `if (was_used) map_remove(map, &keys[index])`, firewall/flow_table.h:43-45. -/
def dropOld (l : Layout) (s : State) (i : Nat) : Bool → Option HashMap.Map
  | true => HashMap.remove hash s.mem s.map (l.cell i)
  | false => some s.map

/-- firewall/flow_table.h:42-49, nat/flow_table.h:47-58, policer.c:80-93, bridge.c:55-64,
maglev/balancer.h:68-76: borrow an index, drop the key that held it, store the new key, map
it. The key is at `kp`. -/
def insert (l : Layout) (s : State) (time kp : Nat) : Option (State × Option Nat) := do
  let (pool, r) ← borrow s.pool time
  match r with
  | none => some ({ s with pool := pool }, none)
  | some (index, wasUsed) =>
    let map ← dropOld l s index wasUsed
    let mem ← assign l s.mem index kp
    let map ← HashMap.set hash mem map (l.cell index) index
    some (⟨mem, map, pool⟩, some index)

/-- maglev/balancer.h:58-59. -/
def drop (l : Layout) (s : State) (i : Nat) : Option State := do
  let map ← HashMap.remove hash s.mem s.map (l.cell i)
  let pool ← giveBack s.pool i
  some { s with map := map, pool := pool }

/-- The bytes of a `struct flow`, firewall/flow_table.h:12-19. Initializers leave the padding
zero. -/
def flowBytes (f : Flow) : List UInt8 :=
  [UInt8.ofNat f.srcIp, UInt8.ofNat (f.srcIp / 256), UInt8.ofNat (f.srcIp / 65536), UInt8.ofNat (f.srcIp / 16777216),
   UInt8.ofNat f.dstIp, UInt8.ofNat (f.dstIp / 256), UInt8.ofNat (f.dstIp / 65536), UInt8.ofNat (f.dstIp / 16777216),
   UInt8.ofNat f.srcPort, UInt8.ofNat (f.srcPort / 256), UInt8.ofNat f.dstPort, UInt8.ofNat (f.dstPort / 256),
   UInt8.ofNat f.protocol, 0, 0, 0]

/-- The initialization of the local variable `flow`, e.g. firewall.c:37-42, 48-54. -/
def putFlow (l : Layout) (s : State) (f : Flow) : State :=
  { s with mem := store s.mem l.loc 16 fun j => (flowBytes f).getD j 0 }

/-- Reading the fields of a `struct flow`. -/
def loadFlow (m : Mem) (a : Nat) : Flow :=
  { srcIp := ld32 m a, dstIp := ld32 m (a + 4), srcPort := ld16 m (a + 8), dstPort := ld16 m (a + 10),
    protocol := (m (a + 12)).toNat }

/-! ### The firewall -/

namespace Firewall

/-- firewall/flow_table.h:36-50 `flow_table_learn_internal`. -/
def learnInternal (l : Layout) (s : State) (time kp : Nat) : Option State := do
  match ← get s kp with
  | some index => refresh s time index
  | none =>
    let (s, _) ← insert l s time kp
    some s

/-- firewall/flow_table.h:52-61 `flow_table_has_external`. -/
def hasExternal (s : State) (time kp : Nat) : Option (State × Bool) := do
  match ← get s kp with
  | some index =>
    if ← used s.pool time index then do
      let s ← refresh s time index
      some (s, true)
    else some (s, false)
  | none => some (s, false)

/-- firewall.c:26-60 `nf_handle`. -/
def handle (l : Layout) (externalDevice : Nat) (s : State) (p : Packet) : Option (State × List Out) :=
  let s := receive l s p
  let m := p.data
  match getIpv4Header m (getEtherHeader p) with
  | none => some (s, [])
  | some ip =>
    match getTcpudpHeader m ip with
    | none => some (s, [])
    | some l4 =>
      if p.device = externalDevice then do
        let s := putFlow l s { srcIp := ld32 m (ip + 16), dstIp := ld32 m (ip + 12),
                               srcPort := ld16 m (l4 + 2), dstPort := ld16 m l4, protocol := (m (ip + 9)).toNat }
        let (s, ok) ← hasExternal s p.time l.loc
        if !ok then some (s, [])
        else some (s, [.transmit p (otherDevice p) false])
      else do
        let s := putFlow l s { srcIp := ld32 m (ip + 12), dstIp := ld32 m (ip + 16),
                               srcPort := ld16 m l4, dstPort := ld16 m (l4 + 2), protocol := (m (ip + 9)).toNat }
        let s ← learnInternal l s p.time l.loc
        some (s, [.transmit p (otherDevice p) false])

end Firewall

/-! ### The NAT -/

namespace NatNf
open Verif.Nf.NatNf (Config rewriteInbound rewriteOutbound)

/-- nat/flow_table.h:41-62 `flow_table_get_internal`; `none` = returns false. -/
def getInternal (l : Layout) (startPort : Nat) (s : State) (time kp : Nat) : Option (State × Option Nat) := do
  match ← get s kp with
  | some index =>
    let s ← refresh s time index
    some (s, some ((startPort + index % 65536) % 65536))
  | none =>
    match ← insert l s time kp with
    | (s, none) => some (s, none)
    | (s, some index) => some (s, some ((startPort + index % 65536) % 65536))

/-- nat/flow_table.h:64-74 `flow_table_get_external`, with the flow it copies out; `none` =
returns false. -/
def getExternal (l : Layout) (startPort : Nat) (s : State) (time port : Nat) : Option (State × Option Flow) := do
  let index := (65536 + port - startPort) % 65536
  if ← used s.pool time index then do
    let s ← refresh s time index
    if index < l.size then some (s, some (loadFlow s.mem (l.cell index))) else none
  else some (s, none)

/-- nat.c:29-77 `nf_handle`. -/
def handle (l : Layout) (c : Config) (s : State) (p : Packet) : Option (State × List Out) :=
  let s := receive l s p
  let m := p.data
  match getIpv4Header m (getEtherHeader p) with
  | none => some (s, [])
  | some ip =>
    match getTcpudpHeader m ip with
    | none => some (s, [])
    | some l4 =>
      if p.device = c.wanDevice then do
        match ← getExternal l c.startPort s p.time (ld16 m (l4 + 2)) with
        | (s, none) => some (s, [])
        | (s, some fl) =>
          if fl.dstIp ≠ ld32 m (ip + 12) ∨ fl.dstPort ≠ ld16 m l4 ∨ fl.protocol ≠ (m (ip + 9)).toNat then
            some (s, [])
          else
            some (s, [.transmit { p with data := rewriteInbound m ip l4 fl } (otherDevice p) true])
      else do
        let s := putFlow l s { srcIp := ld32 m (ip + 12), dstIp := ld32 m (ip + 16),
                               srcPort := ld16 m l4, dstPort := ld16 m (l4 + 2), protocol := (m (ip + 9)).toNat }
        match ← getInternal l c.startPort s p.time l.loc with
        | (s, none) => some (s, [])
        | (s, some port) =>
          some (s, [.transmit { p with data := rewriteOutbound m ip l4 c.externalAddr port } (otherDevice p) true])

end NatNf

/-! ### The policer -/

namespace Policer
open Verif.Nf.Policer (Config Bucket refill)

/-- policer.c:16-19. -/
structure State where
  table : Low.State
  buckets : List Bucket

/-- policer.c:21-42 `nf_init` after reading the configuration; `none` also stands for
`return false`. -/
def init (l : Layout) (mem : Mem) (c : Config) : Option State :=
  if c.rate = 0 ∨ c.burst = 0 then none
  else do
    let table ← alloc l mem (1000000000 * c.burst % 2 ^ 64 / c.rate)
    some { table := table, buckets := List.replicate l.size ⟨0, 0⟩ }

/-- policer.c:56-73. -/
def known (c : Config) (s : State) (time length index : Nat) : Option (State × Bool) := do
  let table ← refresh s.table time index
  let b ← s.buckets[index]?
  let size := refill c b time
  if size > length then some (⟨table, s.buckets.set index ⟨size - length, time⟩⟩, true)
  else some (⟨table, s.buckets.set index ⟨size, time⟩⟩, false)

/-- policer.c:75-93. -/
def unknown (l : Layout) (c : Config) (s : State) (time length kp : Nat) : Option (State × Bool) :=
  if length > c.burst then some (s, false)
  else do
    match ← insert l s.table time kp with
    | (table, none) => some ({ s with table := table }, false)
    | (table, some index) =>
      if index < s.buckets.length then
        some (⟨table, s.buckets.set index ⟨c.burst - length, time⟩⟩, true)
      else none

/-- policer.c:55-94. -/
def police (l : Layout) (c : Config) (s : State) (time length kp : Nat) : Option (State × Bool) := do
  match ← get s.table kp with
  | some index => known c s time length index
  | none => unknown l c s time length kp

/-- policer.c:44-98 `nf_handle`; the key is `&(ipv4_header->dst_addr)`. -/
def handle (l : Layout) (c : Config) (s : State) (p : Packet) : Option (State × List Out) :=
  let s : State := { s with table := receive l s.table p }
  match getIpv4Header p.data (getEtherHeader p) with
  | none => some (s, [])
  | some ip =>
    if p.device = c.wanDevice then do
      match ← police l c s p.time p.length (l.pkt + (ip + 16)) with
      | (s, true) => some (s, [.transmit p (otherDevice p) false])
      | (s, false) => some (s, [])
    else some (s, [.transmit p (otherDevice p) false])

end Policer

/-! ### The bridge -/

namespace Bridge
open Verif.Nf.Bridge (Stp stpInit stpHandle)

/-- bridge.c:9-13. -/
structure State where
  stp : Stp
  table : Low.State
  devices : List Nat

/-- bridge.c:15-36 `nf_init` after reading the configuration. -/
def init (l : Layout) (mem : Mem) (devicesCount bid expiration updateTime : Nat) : Option State := do
  if devicesCount < 2 then none
  else
    let table ← alloc l mem expiration
    some { stp := stpInit devicesCount bid updateTime, table := table, devices := List.replicate l.size 0 }

/-- bridge.c:50-65. -/
def learn (l : Layout) (table : Low.State) (devices : List Nat) (time kp device : Nat) :
    Option (Low.State × List Nat) := do
  match ← get table kp with
  | some index =>
    let table ← refresh table time index
    if index < devices.length then some (table, devices.set index device) else none
  | none =>
    match ← insert l table time kp with
    | (table, none) => some (table, devices)
    | (table, some index) => if index < devices.length then some (table, devices.set index device) else none

/-- bridge.c:67-73. -/
def forward (l : Layout) (stp : Stp) (table : Low.State) (devices : List Nat) (p : Packet) : Option (List Out) := do
  match ← get table l.pkt with
  | some index =>
    let d ← devices[index]?
    if d ≠ p.device then some [.transmit p d false] else some []
  | none => some [.floodExcept p stp.disabled false]

/-- bridge.c:48-65. -/
def learnSource (l : Layout) (s : State) (p : Packet) : Option (Low.State × List Nat) :=
  if (p.data 6).toNat % 2 = 0 then learn l s.table s.devices p.time (l.pkt + 6) p.device
  else some (s.table, s.devices)

/-- bridge.c:48-74. -/
def handleData (l : Layout) (s : State) (p : Packet) : Option (State × List Out) := do
  let (table, devices) ← learnSource l s p
  let outs ← forward l s.stp table devices p
  some ({ s with table := table, devices := devices }, outs)

/-- bridge.c:38-74 `nf_handle`; the keys are the addresses in the packet. -/
def handle (l : Layout) (s : State) (p : Packet) : Option (State × List Out) := do
  let s : State := { s with table := receive l s.table p }
  match ← stpHandle s.stp p with
  | (stp, some outs) => some ({ s with stp := stp }, outs)
  | (stp, none) => handleData l { s with stp := stp } p

end Bridge

/-! ### The load balancer -/

namespace Maglev

/-- maglev/balancer.h:23-30 `struct balancer`. -/
structure Balancer where
  flows : State
  flowBackends : List Nat
  backendPool : Pool
  cht : Cht.Cht

/-- maglev/balancer.h:32-42 `balancer_alloc`. -/
def alloc (l : Layout) (mem : Mem) (flowExp backendCap backendExp chtHeight : Nat) : Option Balancer := do
  let flows ← Low.alloc l mem flowExp
  let pool ← IndexPool.alloc backendCap backendExp
  let cht ← Cht.alloc chtHeight backendCap
  some { flows := flows, flowBackends := List.replicate l.size 0, backendPool := pool, cht := cht }

/-- maglev/balancer.h:62-79; line 63 hashes the bytes of the flow. -/
def pick (l : Layout) (s : Balancer) (kp time : Nat) : Option (Balancer × Option Nat) := do
  match ← Cht.find s.cht (hash s.flows.mem kp 16) s.backendPool time with
  | none => some (s, none)
  | some backend =>
    let (flows, _) ← insert l s.flows time kp
    some ({ s with flows := flows }, some backend)

/-- maglev/balancer.h:49-60. -/
def knownFlow (l : Layout) (s : Balancer) (kp time index backend : Nat) : Bool → Option (Balancer × Option Nat)
  | true => do
    let flows ← refresh s.flows time index
    some ({ s with flows := flows }, some backend)
  | false => do
    let flows ← drop l s.flows index
    pick l { s with flows := flows } kp time

/-- maglev/balancer.h:44-80 `balancer_get_backend`; `none` = returns false. -/
def getBackend (l : Layout) (s : Balancer) (kp time : Nat) : Option (Balancer × Option Nat) := do
  match ← get s.flows kp with
  | some index =>
    let backend ← s.flowBackends[index]?
    let alive ← used s.backendPool time backend
    knownFlow l s kp time index backend alive
  | none => pick l s kp time

/-- maglev/balancer.h:82 `balancer_process_heartbeat`. -/
def heartbeat (s : Balancer) (backend time : Nat) : Option Balancer := do
  let pool ← IndexPool.refresh s.backendPool time backend
  some { s with backendPool := pool }

/-- maglev.c:12-38 `nf_init` after reading the configuration. -/
def init (l : Layout) (mem : Mem) (devicesCount flowExp backendExp chtHeight : Nat) : Option Balancer :=
  if devicesCount < 2 then none
  else if chtHeight = 0 ∨ chtHeight ≥ 40000 then none
  else if devicesCount - 1 ≥ chtHeight then none
  else alloc l mem flowExp (devicesCount - 1) backendExp chtHeight

/-- maglev.c:40-61 `nf_handle`. -/
def handle (l : Layout) (devicesCount : Nat) (s : Balancer) (p : Packet) : Option (Balancer × List Out) :=
  let s : Balancer := { s with flows := receive l s.flows p }
  let m := p.data
  match getIpv4Header m (getEtherHeader p) with
  | none => some (s, [])
  | some ip =>
    match getTcpudpHeader m ip with
    | none => some (s, [])
    | some l4 =>
      if p.device < devicesCount - 1 then do
        let s ← heartbeat s p.device p.time
        some (s, [])
      else do
        let flow : Flow := { srcIp := ld32 m (ip + 12), dstIp := ld32 m (ip + 16),
                             srcPort := ld16 m l4, dstPort := ld16 m (l4 + 2), protocol := (m (ip + 9)).toNat }
        match ← getBackend l { s with flows := putFlow l s.flows flow } l.loc p.time with
        | (s, none) => some (s, [])
        | (s, some backend) => some (s, [.transmit p backend false])

end Maglev

/-- A sequence of packets. -/
def run {S : Type} (handle : S → Packet → Option (S × List Out)) : S → List Packet → Option (S × List (List Out))
  | s, [] => some (s, [])
  | s, p :: ps => do
    let (s, o) ← handle s p
    let (s, os) ← run handle s ps
    some (s, o :: os)

end Verif.Nf.Low
