/-
Model of /repo/nf/bridge/bridge.c and /repo/nf/bridge/spanning_tree.h.

The state is the spanning tree state with the disabled ports, the address table and
the array of devices. See Verif.Nf.Table for how the map and pool are represented.
An Ethernet address is its six bytes as a little-endian number. An out-of-bounds
access is the result `none`.
-/
import Verif.Nf.Table
import Verif.Nf.Packet

set_option autoImplicit false

namespace Verif.Nf.Bridge

/-- spanning_tree.h:18-25 `struct stp_state`, and the static arrays/values of lines 15-16. -/
structure Stp where
  lastUpdate : Nat
  self : Nat
  root : Nat
  rootCost : Nat
  rootPort : Nat
  disabled : List Bool
  updateTime : Nat

/-- spanning_tree.h:33-41 `stp_init`. -/
def stpInit (devicesCount selfBid updateTime : Nat) : Stp :=
  { lastUpdate := 0, self := selfBid, root := selfBid, rootCost := 0, rootPort := 0,
    disabled := List.replicate devicesCount false, updateTime := updateTime }

/-- Little-endian 64-bit load. -/
def ld64 (m : Mem) (a : Nat) : Nat := ld32 m a + 2 ^ 32 * ld32 m (a + 4)
/-- 64-bit store. -/
def st64 (m : Mem) (a v : Nat) : Mem := st32 (st32 m a v) (a + 4) (v / 2 ^ 32)

/-- An Ethernet address at offset `a`. -/
def ldMac (m : Mem) (a : Nat) : Nat := ld32 m a + 2 ^ 32 * ld16 m (a + 4)

/-- spanning_tree.h:48-50, 89-91: `data->root/root_cost/sender = …`; the packed BPDU
(lines 27-31) starts at offset 14. -/
def writeBpdu (m : Mem) (root rootCost self : Nat) : Mem :=
  st64 (st32 (st64 m 14 root) 22 rootCost) 26 self

/-- spanning_tree.h:56-59: is the destination the spanning tree group address? -/
def isStpDst (m : Mem) : Bool :=
  !((m 0).toNat != 0x01 || (m 1).toNat != 0x80 || (m 2).toNat != 0xC2 || (m 3).toNat != 0 || (m 4).toNat != 0 ||
    (m 5).toNat != 0)

/-- spanning_tree.h:87-98: broadcast of changed information. -/
def stpUpdated (st : Stp) (p : Packet) : Option (Stp × List Out) :=
  if st.rootPort < st.disabled.length then
    some ({ st with disabled := st.disabled.set st.rootPort false },
      [.flood { p with data := writeBpdu p.data st.root st.rootCost st.self } true])
  else none

/-- spanning_tree.h:61-98: a BPDU. `data->root_cost + LINK_COST` is 32-bit. -/
def stpBpdu (st : Stp) (p : Packet) : Option (Stp × List Out) :=
  let root := ld64 p.data 14
  let cost := (ld32 p.data 22 + 10) % 2 ^ 32
  if root > st.root then
    if p.device < st.disabled.length then some ({ st with disabled := st.disabled.set p.device true }, []) else none
  else if root < st.root then
    stpUpdated { st with root := root, rootCost := cost, rootPort := p.device } p
  else if root = st.root ∧ cost < st.rootCost then
    stpUpdated { st with rootCost := cost, rootPort := p.device } p
  else if root = st.root ∧ cost = st.rootCost ∧ p.device < st.rootPort then
    stpUpdated { st with rootPort := p.device } p
  else some (st, [])

/-- spanning_tree.h:43-99 `stp_handle`; `none` in the second component = returns
false. The sum of line 45 is 64-bit. -/
def stpHandle (st : Stp) (p : Packet) : Option (Stp × Option (List Out)) :=
  if p.time > (st.lastUpdate + st.updateTime) % 2 ^ 64 then
    some ({ st with lastUpdate := p.time },
      some [.flood { p with data := writeBpdu p.data st.root st.rootCost st.self, length := 14 + 20 } true])
  else if !isStpDst p.data then some (st, none)
  else (stpBpdu st p).map fun r => (r.1, some r.2)

/-- bridge.c:9-13. -/
structure State where
  stp : Stp
  table : Table Nat
  devices : List Nat

/-- bridge.c:15-36 `nf_init` after reading the configuration. -/
def init (devicesCount bid expiration capacity updateTime : Nat) : Option State := do
  if devicesCount < 2 then none
  else
    let table ← Table.alloc 0 capacity expiration
    some { stp := stpInit devicesCount bid updateTime, table := table, devices := List.replicate capacity 0 }

/-- bridge.c:50-65: learning of a source address. -/
def learn (table : Table Nat) (devices : List Nat) (time src device : Nat) : Option (Table Nat × List Nat) :=
  match table.map.get src with
  | some index => do
    let table ← table.refresh time index
    if index < devices.length then some (table, devices.set index device) else none
  | none => do
    match ← table.insert time src with
    | (table, none) => some (table, devices)
    | (table, some index) => if index < devices.length then some (table, devices.set index device) else none

/-- bridge.c:67-73: forwarding. -/
def forward (stp : Stp) (table : Table Nat) (devices : List Nat) (p : Packet) : Option (List Out) :=
  match table.map.get (ldMac p.data 0) with
  | some index => do
    let d ← devices[index]?
    if d ≠ p.device then some [.transmit p d false] else some []
  | none => some [.floodExcept p stp.disabled false]

/-- bridge.c:48-65: learning unless the source is a group address. -/
def learnSource (s : State) (p : Packet) : Option (Table Nat × List Nat) :=
  if (p.data 6).toNat % 2 = 0 then learn s.table s.devices p.time (ldMac p.data 6) p.device
  else some (s.table, s.devices)

/-- bridge.c:48-74: a data frame. -/
def handleData (s : State) (p : Packet) : Option (State × List Out) := do
  let (table, devices) ← learnSource s p
  let outs ← forward s.stp table devices p
  some ({ s with table := table, devices := devices }, outs)

/-- bridge.c:38-74 `nf_handle`. -/
def handle (s : State) (p : Packet) : Option (State × List Out) := do
  match ← stpHandle s.stp p with
  | (stp, some outs) => some ({ s with stp := stp }, outs)
  | (stp, none) => handleData { s with stp := stp } p

/-- A frame sequence. -/
def run : State → List Packet → Option (State × List (List Out))
  | s, [] => some (s, [])
  | s, p :: ps => do
    let (s, o) ← handle s p
    let (s, os) ← run s ps
    some (s, o :: os)

end Verif.Nf.Bridge
