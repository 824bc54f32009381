/-
Model of the symbolic models of the data structures:
/repo/tool/klint/externals/structs/{index_pool,map,lpm,cht}.py.

A symbolic procedure is described by what it accepts and by its outcomes on a
concrete ghost state, i.e. after substituting values for all symbols:
* a fresh `claripy.BVS` is any value of that width;
* `solver.add(c)` keeps only the outcomes for which `c` holds;
* `fork_guarded(g, t, f)` has the outcomes of `t` where `g` holds and those of `f`
  where it does not (this is property C12);
* `assert definitely_true(c)` requires `c` of the state (`ok`, or a `none` result);
* the ghost map operations have their finite-map meaning (properties C19-C23), and
  the length of a map is its number of items.
All integers are unsigned 64-bit values represented as natural numbers.
-/
import Verif.Spec.GhostMap
import Verif.Spec.IndexPool
import Verif.Spec.HashMap
import Verif.Spec.Lpm

set_option autoImplicit false

namespace Verif.Tool

/-- 64-bit subtraction. -/
def sub64 (a b : Nat) : Nat := (a + 2 ^ 64 - b) % 2 ^ 64
/-- 64-bit multiplication. -/
def mul64 (a b : Nat) : Nat := a * b % 2 ^ 64

namespace PoolModel
open IndexPoolSpec (Call Answer)

/-- index_pool.py:22-24, the check of `index_pool_alloc`; `uint64_t` is 64, in bits. -/
def allocOk (size : Nat) : Bool := mul64 size 64 ≤ 2 ^ 64 - 1

/-- index_pool.py:79, 92, 153: `time.ULT(exp) | (time - exp).ULE(v)`. -/
def young (time exp v : Nat) : Bool := decide (time < exp) || decide (sub64 time exp ≤ v)

/-- The checks of the calls: index_pool.py:62-64 (borrow), :120-123 (refresh), :175-177 (return). -/
def ok (size : Nat) : Call → Prop
  | .borrow t => t ≠ 0xFFFFFFFFFFFFFFFF
  | .refresh t i => t ≠ 0xFFFFFFFFFFFFFFFF ∧ i < size
  | .used _ _ => True
  | .giveBack i => i < size

/-- index_pool.py:68-103 `index_pool_borrow`: the result, the two output cells and the
items afterwards. `bool` is one byte wide. -/
def borrow (size exp : Nat) (items : GMap Nat Nat) (time : Nat) (result index used : Nat) (items' : GMap Nat Nat) : Prop :=
  index < 2 ^ 64 ∧ used < 2 ^ 8 ∧ result < 2 ^ 8 ∧
  (if items.length = size then
    (if items.forallB (fun _ v => young time exp v) then result = 0 else result ≠ 0 ∧ used ≠ 0)
   else result ≠ 0) ∧
  (if result ≠ 0 then
    index < size ∧
    (if used ≠ 0 then ∃ v, items.get index = some v ∧ young time exp v = false else items.get index = none) ∧
    items' = items.set index time
   else items' = items)

/-- index_pool.py:105-126 `index_pool_refresh`. -/
def refresh (items : GMap Nat Nat) (time index : Nat) : GMap Nat Nat := items.set index time

/-- index_pool.py:146-159 `index_pool_used`: the result. -/
def used (exp : Nat) (items : GMap Nat Nat) (time index result : Nat) : Prop :=
  match items.get index with
  | some t => if young time exp t then result = 1 else result = 0
  | none => result = 0

/-- index_pool.py:161-180 `index_pool_return`. -/
def giveBack (items : GMap Nat Nat) (index : Nat) : GMap Nat Nat := items.remove index

/-- What a caller sees of an outcome: bytes other than 0 are true. -/
def outcome (size exp : Nat) (items : GMap Nat Nat) : Call → Answer → GMap Nat Nat → Prop
  | .borrow t, .borrowed i u, items' => ∃ result used, borrow size exp items t result i used items' ∧ result ≠ 0 ∧ (u = true ↔ used ≠ 0)
  | .borrow t, .notBorrowed, items' => ∃ index used, borrow size exp items t 0 index used items'
  | .refresh t i, .unit, items' => items' = refresh items t i
  | .used t i, .bool b, items' => items' = items ∧ ∃ r, used exp items t i r ∧ (b = true ↔ r ≠ 0)
  | .giveBack i, .unit, items' => items' = giveBack items i
  | _, _, _ => False

end PoolModel

namespace MapModel
open HashMapSpec (Key Call)

/-- The part of the symbolic state the map procedures use: memory, the heap's elements and
their ownership (heap.py), and the two ghost maps. `elem a` is the first address of the
allocated element containing byte `a`, `eph` its ephemeral allocations. Keys are the
bytes of the key (map.py loads them as one integer). -/
structure State where
  mem : Nat → UInt8
  elem : Nat → Option Nat
  frac : Nat → Nat
  eph : Nat → Bool
  values : GMap Key Nat
  addrs : GMap Key Nat

/-- map.py:26-28, the check of `map_alloc`. -/
def allocOk (capacity : Nat) : Bool := mul64 capacity 64 ≤ 2 ^ 64 - 1

/-- heap.py:115-143, `_read` of one byte: its element must be partly owned, or ephemeral
(allocated without ownership, heap.py:51-52; the stack and packet memory are also treated as such here). -/
def readOk (s : State) (a : Nat) : Bool :=
  match s.elem a with
  | some e => s.eph e || s.frac e ≠ 0
  | none => false

/-- `memory.load(key_ptr, key_size)`. -/
def load (ks : Nat) (s : State) (p : Nat) : Option Key :=
  if (List.range ks).all (fun i => readOk s (p + i)) then some ((List.range ks).map fun i => s.mem (p + i)) else none

/-- heap.py:70-86 `take`: the new state and the previous fraction; `none` takes everything. -/
def take (s : State) (fraction : Option Nat) (p : Nat) : Option (State × Nat) :=
  if s.elem p = some p ∧ s.eph p = false then
    let current := s.frac p
    let f := fraction.getD current
    if current ≥ f then some ({ s with frac := fun x => if x = p then current - f else s.frac x }, current) else none
  else none

/-- heap.py:89-101 `give`; fractions are bytes. -/
def give (s : State) (fraction : Nat) (p : Nat) : Option State :=
  if s.elem p = some p ∧ s.eph p = false then
    if (s.frac p + fraction) % 256 ≤ 100 then
      some { s with frac := fun x => if x = p then (s.frac p + fraction) % 256 else s.frac x }
    else none
  else none

/-- map.py:54-72 `map_get`; the inner result is the value, none for false. -/
def get (ks : Nat) (s : State) (p : Nat) : Option (Option Nat) := do
  let key ← load ks s p
  some (s.values.get key)

/-- map.py:87-104 `map_set`. -/
def set (ks capacity : Nat) (s : State) (p v : Nat) : Option State := do
  let key ← load ks s p
  let (s, _) ← take s (some 25) p
  if s.values.length < capacity ∧ s.values.get key = none ∧ s.addrs.get key = none then
    some { s with values := s.values.set key v, addrs := s.addrs.set key p }
  else none

/-- map.py:120-139 `map_remove`. -/
def remove (ks : Nat) (s : State) (p : Nat) : Option State := do
  let key ← load ks s p
  let (s, frac) ← take s none p
  if frac ≠ 0 ∧ s.values.get key ≠ none ∧ s.addrs.get key = some p then
    give { s with values := s.values.remove key, addrs := s.addrs.remove key } ((frac + 25) % 256) p
  else none

/-- heap.py:146-190, `_write` of one byte: its element must be fully owned, or ephemeral. -/
def write (s : State) (a : Nat) (v : UInt8) : Option State :=
  match s.elem a with
  | some e => if s.eph e ∨ s.frac e = 100 then some { s with mem := fun x => if x = a then v else s.mem x } else none
  | none => none

/-- One action of the program; only `get` reports something. -/
def step (ks capacity : Nat) (s : State) : Call → Option (State × Option (Option Nat))
  | .get p => do let r ← get ks s p; some (s, some r)
  | .set p v => do let s' ← set ks capacity s p v; some (s', none)
  | .remove p => do let s' ← remove ks s p; some (s', none)
  | .write a v => do let s' ← write s a v; some (s', none)

/-- A sequence of accepted actions. -/
def run (ks capacity : Nat) : State → List Call → Option (State × List (Option (Option Nat)))
  | s, [] => some (s, [])
  | s, c :: cs => do
    let (s, r) ← step ks capacity s c
    let (s, rs) ← run ks capacity s cs
    some (s, r :: rs)

end MapModel

namespace LpmModel

/-- The table: from (key, width) to value, with 32-bit keys (lpm.py uses `key.concat(width)`). -/
abbrev Table := GMap (Nat × Nat) Nat

/-- lpm.py:83-99 `matches`: 64-bit arithmetic, logical shift. -/
def matchesItem (key : Nat) (item : Nat × Nat) : Bool :=
  let shift := sub64 32 item.2
  item.1 / 2 ^ shift = key / 2 ^ shift

/-- lpm.py:45-63 `lpm_set`; none = rejected. -/
def set (capacity : Nat) (t : Table) (key width value : Nat) : Option (Table × Bool) :=
  if width ≤ 32 then
    if t.get (key, width) ≠ none ∨ t.length < capacity then some (t.set (key, width) value, true) else some (t, false)
  else none

/-- lpm.py:101-116 `lpm_search`: the possible answers, none for false. -/
def search (t : Table) (key : Nat) : Option Nat → Prop
  | none => t.forallB (fun k _ => !matchesItem key k) = true
  | some value => t.forallB (fun k _ => !matchesItem key k) = false ∧
      ∃ width, width < 2 ^ 64 ∧ t.get (key, width) = some value ∧ matchesItem key (key, width) = true ∧
        t.forallB (fun k v => !matchesItem key k || decide (k.2 < width) || decide (v = value)) = true

end LpmModel

namespace ChtModel

/-- cht.py:53-66 `cht_find_preferred_available_backend`: the possible answers, none for false. -/
def find (cap : Nat) (items : GMap Nat Nat) : Option Nat → Prop
  | none => items.forallB (fun k _ => decide (k < 0) || decide (k ≥ cap)) = true
  | some backend => items.forallB (fun k _ => decide (k < 0) || decide (k ≥ cap)) = false ∧
      backend < 2 ^ 16 ∧ backend < cap ∧ items.get backend ≠ none

end ChtModel
end Verif.Tool
