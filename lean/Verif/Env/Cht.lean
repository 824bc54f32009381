/-
Model of /repo/env/src/structs/cht.c.

Simplifications (whole file):
* Sizes are natural numbers. With `cht_height < 40000` and `backend_capacity <
  cht_height` no product exceeds 2^31, so `int` and `size_t` arithmetic is exact;
  stores into `uint16_t` arrays are reduced modulo 2^16.
* An out-of-bounds array access (undefined behaviour in C) is the result `none`.
* `os_memory_alloc` returns zeroed memory (memory.h:30).
-/
import Verif.Env.IndexPool
import Verif.Env.Memory

set_option autoImplicit false
set_option linter.dupNamespace false

namespace Verif.Cht

/-- cht.h:11-16 `struct cht`. -/
structure Cht where
  data : List Nat
  height : Nat
  cap : Nat
deriving Repr, DecidableEq

/-- cht.c:5 `loop`. -/
def loop (k capacity : Nat) : Nat := k % capacity

/-- A bounds-checked array store. -/
def store (l : List Nat) (i v : Nat) : Option (List Nat) :=
  if i < l.length then some (l.set i v) else none

/-- cht.c:20-23, inner loop over `j`, `k` iterations left. -/
def permInner (h i offset shift : Nat) : Nat → Nat → List Nat → Option (List Nat)
  | 0, _, perms => some perms
  | k + 1, j, perms => do
    let permut := loop (offset + shift * j) h
    let perms ← store perms (i * h + j) (permut % 2 ^ 16)
    permInner h i offset shift k (j + 1) perms

/-- cht.c:17-24, outer loop over `i`. -/
def permOuter (h : Nat) : Nat → Nat → List Nat → Option (List Nat)
  | 0, _, perms => some perms
  | k + 1, i, perms => do
    let offset := loop (i * 31) h
    let shift := loop i (h - 1) + 1
    let perms ← permInner h i offset shift h 0 perms
    permOuter h k (i + 1) perms

/-- cht.c:29-34, inner loop over `j`; the state is (`next`, `cht->data`). -/
def fillInner (h cap i : Nat) (perms : List Nat) : Nat → Nat → List Nat × List Nat → Option (List Nat × List Nat)
  | 0, _, s => some s
  | k + 1, j, (next, data) => do
    let bucketId ← perms[j * h + i]?
    let priority ← next[bucketId]?
    let next ← store next bucketId (priority + 1)
    let data ← store data (cap * bucketId + priority) (j % 2 ^ 16)
    fillInner h cap i perms k (j + 1) (next, data)

/-- cht.c:28-35, outer loop over `i`. -/
def fillOuter (h cap : Nat) (perms : List Nat) : Nat → Nat → List Nat × List Nat → Option (List Nat × List Nat)
  | 0, _, s => some s
  | k + 1, i, s => do
    let s ← fillInner h cap i perms cap 0 s
    fillOuter h cap perms k (i + 1) s

/-- cht.c:7-40 `cht_alloc`. -/
def alloc (h cap : Nat) : Option Cht := do
  let perms ← permOuter h cap 0 (List.replicate (h * cap) 0)
  let (_, data) ← fillOuter h cap perms h 0 (List.replicate h 0, List.replicate (h * cap) 0)
  some { data := data, height := h, cap := cap }

/-- cht.c:45-51, the search loop; `some none` = returns false. -/
def findLoop (c : Cht) (pool : IndexPool.Pool) (time bucket : Nat) : Nat → Nat → Option (Option Nat)
  | 0, _ => some none
  | k + 1, i => do
    let candidate ← c.data[bucket + i]?
    if ← IndexPool.used pool time candidate then some (some candidate)
    else findLoop c pool time bucket k (i + 1)

/-- cht.c:42-53 `cht_find_preferred_available_backend`; `hash` is the object's
`os_memory_hash`. -/
def find (c : Cht) (hash : Nat) (pool : IndexPool.Pool) (time : Nat) : Option (Option Nat) :=
  findLoop c pool time (loop hash c.height * c.cap) c.cap 0

end Verif.Cht
