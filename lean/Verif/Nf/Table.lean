/-
The state layout shared by the network functions in /repo/nf: an array of keys, a
map from key to index (struct map) and an index pool, used together as an
expiring table.

Simplifications (whole file):
* The index pool is the model of index_pool.c itself (Verif.Env.IndexPool).
* The map is its contract (map.h:13-66; map.c is proved to meet it, C03), with the
  preconditions checked: a call that violates one is the result `none`. A key's
  address is the index of the array cell it lies in (`&keys[index]`).
* Overwriting an array cell whose key is held by the map (the map owns a share of
  it) or a cell out of bounds is the result `none`.
-/
import Verif.Env.IndexPool

set_option autoImplicit false

namespace Verif.Nf
open Verif.IndexPool

/-- map.h:13: the contract-level state of a `struct map`. -/
structure CMap (K : Type) where
  cap : Nat
  values : GMap K Nat
  addrs : GMap K Nat
deriving Repr, DecidableEq

variable {K : Type} [DecidableEq K]

/-- map.h:15-21 `map_alloc`. -/
def CMap.alloc (cap : Nat) : CMap K := { cap := cap, values := [], addrs := [] }

/-- map.h:23-39 `map_get`. -/
def CMap.get (m : CMap K) (k : K) : Option Nat := m.values.get k

/-- map.h:41-53 `map_set` with its precondition. -/
def CMap.set (m : CMap K) (k : K) (addr v : Nat) : Option (CMap K) :=
  if m.values.length < m.cap ∧ m.values.get k = none ∧ m.addrs.get k = none then
    some { m with values := m.values.set k v, addrs := m.addrs.set k addr }
  else none

/-- map.h:55-67 `map_remove` with its precondition. -/
def CMap.remove (m : CMap K) (k : K) (addr : Nat) : Option (CMap K) :=
  if m.values.get k ≠ none ∧ m.addrs.get k = some addr then
    some { m with values := m.values.remove k, addrs := m.addrs.remove k }
  else none

/-- Array of keys, map and pool. -/
structure Table (K : Type) where
  keys : List K
  map : CMap K
  pool : Pool
deriving Repr, DecidableEq

/-- Allocation of the three parts; `zero` is the all-zero key. E.g.
firewall/flow_table.h:27-34. -/
def Table.alloc (zero : K) (size exp : Nat) : Option (Table K) := do
  let pool ← IndexPool.alloc size exp
  some { keys := List.replicate size zero, map := CMap.alloc size, pool := pool }

/-- The store `keys[index] = key`. -/
def Table.writeKey (tb : Table K) (i : Nat) (k : K) : Option (Table K) :=
  if i < tb.keys.length ∧ ∀ x ∈ tb.map.addrs, x.2 ≠ i then some { tb with keys := tb.keys.set i k } else none

/-- `if (was_used) map_remove(map, &keys[index])`, firewall/flow_table.h:43-45. -/
def Table.dropOld (tb : Table K) (i : Nat) : Bool → Option (CMap K)
  | true => do let old ← tb.keys[i]?; tb.map.remove old i
  | false => some tb.map

/-- The insertion sequence that every network function spells out in line after a
failed map_get: borrow an index, drop the key that held it, store the new key, map
it. firewall/flow_table.h:42-49, nat/flow_table.h:47-58, policer.c:80-93,
bridge.c:55-64, maglev/balancer.h:68-76. Result `none` = no index available. -/
def Table.insert (tb : Table K) (time : Nat) (k : K) : Option (Table K × Option Nat) := do
  let (pool, r) ← borrow tb.pool time
  match r with
  | none => some ({ tb with pool := pool }, none)
  | some (index, wasUsed) =>
    let tb : Table K := { tb with pool := pool }
    let map ← tb.dropOld index wasUsed
    let tb ← Table.writeKey { tb with map := map } index k
    let map ← tb.map.set k index index
    some ({ tb with map := map }, some index)

/-- index_pool_refresh on the table's pool. -/
def Table.refresh (tb : Table K) (time i : Nat) : Option (Table K) := do
  let pool ← IndexPool.refresh tb.pool time i
  some { tb with pool := pool }

/-- map_remove followed by index_pool_return, maglev/balancer.h:58-59. -/
def Table.drop (tb : Table K) (i : Nat) : Option (Table K) := do
  let old ← tb.keys[i]?
  let map ← tb.map.remove old i
  let pool ← giveBack tb.pool i
  some { tb with map := map, pool := pool }

end Verif.Nf
