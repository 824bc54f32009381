/-
Model of /repo/env/src/structs/map.c.

Simplifications (whole file):
* `size_t` values are natural numbers; the additions and subtractions that C
  performs modulo 2^64 are written with the modulus.
* `hash_t` is a natural number; the hash function is a parameter (it stands for
  `os_memory_hash`, see Verif/Env/Memory.lean, and reads memory).
* An out-of-bounds array access (undefined behaviour in C) is the result `none`.
* Key bytes are not copied by the map: they live in the memory passed around.
-/
import Verif.Env.Memory

namespace Verif.HashMap

/-- map.c:31-37 `struct map_item`; address 0 is NULL. -/
structure Item where
  keyAddr : Nat
  value : Nat
  chain : Nat
  keyHash : Nat
deriving Repr, DecidableEq

/-- map.c:168-172 `struct map`. -/
structure Map where
  items : List Item
  keySize : Nat
  capacity : Nat
deriving Repr, DecidableEq

/-- map.c:325-334, the doubling loop, with `fuel` bounding the iterations; running
out of fuel (the C loop would not end) is `none`. -/
def grow (capacity : Nat) : Nat → Nat → Option Nat
  | 0, _ => none
  | fuel + 1, rc => if rc < capacity then grow capacity fuel (rc * 2 % 2 ^ 64) else some rc

/-- map.c:313-336 `get_real_capacity`. -/
def getRealCapacity (capacity : Nat) : Option Nat :=
  if capacity = 0 then some 0 else grow capacity 65 1

/-- map.c:338-362 `loop`. -/
def loop (start i capacity : Nat) : Nat :=
  let startmod := start &&& (capacity - 1)
  ((startmod + i) % 2 ^ 64) &&& (capacity - 1)

/-- map.c:553-590, the initialisation loop over the items, from index `n`, `k` left. -/
def clearLoop : Nat → Nat → List Item → Option (List Item)
  | 0, _, items => some items
  | k + 1, n, items => do
    let it ← items[n]?
    clearLoop k (n + 1) (items.set n { it with keyAddr := 0, chain := 0 })

/-- map.c:531-611 `map_alloc`; `os_memory_alloc` returns zeroed memory (memory.h:30). -/
def alloc (keySize capacity : Nat) : Option Map := do
  let rc ← getRealCapacity capacity
  let items ← clearLoop rc 0 (List.replicate rc ⟨0, 0, 0, 0⟩)
  some { items := items, keySize := keySize, capacity := rc }

section
variable (mem : Mem) (ks cap kp kh : Nat)

/-- map.c:1040-1122, the loop of `map_get` at iteration `i`, `k` iterations left:
`some none` = returns false, `some (some v)` = returns true with `*out_value = v`. -/
def getLoop (items : List Item) : Nat → Nat → Option (Option Nat)
  | 0, _ => some none
  | k + 1, i => do
    let it ← items[loop kh i cap]?
    if it.keyAddr ≠ 0 ∧ it.keyHash = kh then
      if Memory.memEq mem it.keyAddr kp ks then some (some it.value)
      else getLoop items k (i + 1)
    else if it.chain = 0 then some none
    else getLoop items k (i + 1)

/-- map.c:1498-1612, the loop of `map_set`. -/
def setLoop (value : Nat) : Nat → Nat → List Item → Option (List Item)
  | 0, _, items => some items
  | k + 1, i, items => do
    let idx := loop kh i cap
    let it ← items[idx]?
    if it.keyAddr = 0 then
      some (items.set idx { it with keyAddr := kp, keyHash := kh, value := value })
    else setLoop value k (i + 1) (items.set idx { it with chain := (it.chain + 1) % 2 ^ 64 })

/-- map.c:1809-1926, the loop of `map_remove`. -/
def removeLoop : Nat → Nat → List Item → Option (List Item)
  | 0, _, items => some items
  | k + 1, i, items => do
    let idx := loop kh i cap
    let it ← items[idx]?
    if it.keyAddr ≠ 0 ∧ it.keyHash = kh ∧ Memory.memEq mem it.keyAddr kp ks then
      some (items.set idx { it with keyAddr := 0 })
    else removeLoop k (i + 1) (items.set idx { it with chain := (it.chain + (2 ^ 64 - 1)) % 2 ^ 64 })

end

/-- The hash function used by the map, as in `os_memory_hash(obj, obj_size)`. -/
abbrev HashFn := Mem → Nat → Nat → Nat

/-- map.c:1025-1135 `map_get`. -/
def get (hash : HashFn) (mem : Mem) (m : Map) (kp : Nat) : Option (Option Nat) :=
  getLoop mem m.keySize m.capacity kp (hash mem kp m.keySize) m.items m.capacity 0

/-- map.c:1481-1615 `map_set`. -/
def set (hash : HashFn) (mem : Mem) (m : Map) (kp value : Nat) : Option Map := do
  let items ← setLoop m.capacity kp (hash mem kp m.keySize) value m.capacity 0 m.items
  some { m with items := items }

/-- map.c:1785-1931 `map_remove`. -/
def remove (hash : HashFn) (mem : Mem) (m : Map) (kp : Nat) : Option Map := do
  let items ← removeLoop mem m.keySize m.capacity kp (hash mem kp m.keySize) m.capacity 0 m.items
  some { m with items := items }

/-- The program's actions: calls to the API, and stores into its own memory. -/
inductive Op where
  | get (kp : Nat)
  | set (kp value : Nat)
  | remove (kp : Nat)
  | write (a : Nat) (v : UInt8)

/-- Dispatch of one action; only `get` reports something. -/
def step (hash : HashFn) (s : Map × Mem) : Op → Option ((Map × Mem) × Option (Option Nat))
  | .get kp => do let r ← get hash s.2 s.1 kp; some (s, some r)
  | .set kp v => do let m ← set hash s.2 s.1 kp v; some ((m, s.2), none)
  | .remove kp => do let m ← remove hash s.2 s.1 kp; some ((m, s.2), none)
  | .write a v => some ((s.1, Memory.store s.2 a v), none)

/-- A sequence of actions. -/
def run (hash : HashFn) (s : Map × Mem) : List Op → Option ((Map × Mem) × List (Option (Option Nat)))
  | [] => some (s, [])
  | op :: ops => do
    let (s', r) ← step hash s op
    let (s'', rs) ← run hash s' ops
    some (s'', r :: rs)

end Verif.HashMap
