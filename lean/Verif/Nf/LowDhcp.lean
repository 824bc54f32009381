/-
The DHCP server of /repo/nf/dhcp_ipv4 on the code of its data structures: the clients'
addresses are bytes in the memory that also holds the messages, the map is the code of map.c
and the pool that of index_pool.c. Verif.Nf.Dhcp uses the contract of the map, and a memory
for messages that is apart from the table of clients.

Simplifications (whole file):
* The memory is total and byte-addressed: an access to an unmapped address is not told apart.
  Loads and stores are little endian (x86-64).
* The map's items, the pool's time stamps and the array of addresses to give out are not part
  of that memory.
* An access outside an array, or a search of map.c without end, is the result `none`.
-/
import Verif.Nf.Dhcp
import Verif.Nf.Low

set_option autoImplicit false

namespace Verif.Nf.Low.Dhcp
open Verif.Nf.Dhcp (options isDiscover isRequest createAck setNack offer)
open Verif.IndexPool

/-- dhcp.c:10-21. The static variables other than the table of clients are those of
Verif.Nf.Dhcp, whose own table plays no part here. -/
structure Server where
  statics : Nf.Dhcp.Server
  table : State

/-- dhcp.c:112-168 `nf_init`: as in Verif.Nf.Dhcp, with the allocations of lines 152-154. -/
def init (l : Layout) (mem : Mem) (items : List (List UInt8 × Nat)) : Option (Option Server) := do
  match ← Nf.Dhcp.init items with
  | none => some none
  | some st =>
    let table ← alloc l mem st.exp
    some (some ⟨st, table⟩)

/-- A message arrives: any memory other than the clients' addresses may have changed. -/
def arrive (l : Layout) (s : Server) (m : Mem) : Server :=
  { s with table := { s.table with mem := fun x => if l.keys ≤ x ∧ x < l.keys + l.ks * l.size then s.table.mem x else m x } }

/-- dhcp.c:92 `os_memory_copy(discover->client_identifier_value, &eth_addresses[index], …)`. -/
def copyKey (l : Layout) (m : Mem) (i kp : Nat) : Option Mem :=
  if i < l.size then some (Memory.copy m kp (l.cell i) l.ks) else none

/-- dhcp.c:88-93 and 97-99. -/
def insert (l : Layout) (s : State) (time kp : Nat) : Option (State × Option Nat) := do
  let (pool, r) ← borrow s.pool time
  match r with
  | none => some ({ s with pool := pool }, none)
  | some (index, wasUsed) =>
    let map ← dropOld l s index wasUsed
    let mem ← copyKey l s.mem index kp
    let map ← HashMap.set hash mem map (l.cell index) index
    some (⟨mem, map, pool⟩, some index)

/-- Stores to the memory. -/
def put (s : Server) (t : State) (mem : Mem) : Server := { s with table := { t with mem := mem } }

/-- dhcp.c:53-69 `is_dhcp_request_message_accepted`. -/
def request (s : Server) (h time : Nat) : Option (Server × Bool) := do
  let o := options s.table.mem h
  match ← get s.table (o + 6) with
  | some index =>
    let ip ← s.statics.ips[index]?
    if ip = ld32 s.table.mem (o + 14) then
      let t ← refresh s.table time index
      some (put s t (createAck s.statics t.mem h ip), true)
    else some (put s s.table (setNack s.table.mem o), true)
  | none => some (s, false)

/-- dhcp.c:87 or 94, and 100-109. -/
def reply (s : Server) (t : State) (h index : Nat) : Option (Server × Bool) := do
  let ip ← s.statics.ips[index]?
  some (put s t (offer s.statics (st32 t.mem (h + 16) ip) h), true)

/-- dhcp.c:79-110 `try_create_dhcp_discover_message`. -/
def discover (l : Layout) (s : Server) (h time : Nat) : Option (Server × Bool) := do
  let o := options s.table.mem h
  match ← get s.table (o + 6) with
  | some index =>
    let t ← refresh s.table time index
    reply s t h index
  | none =>
    match ← insert l s.table time (o + 6) with
    | (t, none) => some ({ s with table := t }, false)
    | (t, some index) => reply s t h index

/-- dhcp.c:188-196, the part of nf_handle that is commented out. -/
def serve (l : Layout) (s : Server) (h time : Nat) : Option (Server × Bool) :=
  if isDiscover s.table.mem h then discover l s h time
  else if isRequest s.table.mem h then request s h time
  else some (s, false)

/-- A sequence of messages, as in Verif.Nf.Dhcp; the results are the memory after each, and
whether to reply. -/
def run (l : Layout) : Server → List (Mem × Nat × Nat) → Option (Server × List (Mem × Bool))
  | s, [] => some (s, [])
  | s, (m, h, time) :: rest => do
    let (s, b) ← serve l (arrive l s m) h time
    let (s', rs) ← run l s rest
    some (s', (s.table.mem, b) :: rs)

end Verif.Nf.Low.Dhcp
