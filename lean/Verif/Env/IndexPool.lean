/-
Model of /repo/env/src/structs/index_pool.c.

Simplifications (whole file):
* `time_t`/`size_t` are natural numbers; every subtraction in the C code is
  guarded by `time >= expiration_time`, so no wrap-around is observable.
  `TIME_MAX` is `2^64 - 1`.
* An out-of-bounds array access (undefined behaviour in C) is the result `none`.
* Output parameters are returned as values.
-/
import Verif.Spec.GhostMap

namespace Verif.IndexPool

/-- /repo/env/include/os/time.h:7 `TIME_MAX`. -/
def TIME_MAX : Nat := 2 ^ 64 - 1

/-- index_pool.c:9-14 `struct index_pool`. -/
structure Pool where
  timestamps : List Nat
  size : Nat
  exp : Nat
  lastBorrowed : Nat
deriving Repr, DecidableEq

/-- index_pool.c:95-106, the fill loop `for (n = size; n > 0; n--) timestamps[n-1] = TIME_MAX`. -/
def fill : Nat → List Nat → Option (List Nat)
  | 0, ts => some ts
  | n + 1, ts => if n < ts.length then fill n (ts.set n TIME_MAX) else none

/-- index_pool.c:84-113 `index_pool_alloc`. `os_memory_alloc` returns zeroed
memory (memory.h), so `last_borrowed_index` starts at 0 and timestamps at 0. -/
def alloc (size exp : Nat) : Option Pool := do
  let ts ← fill size (List.replicate size 0)
  some { timestamps := ts, size := size, exp := exp, lastBorrowed := 0 }

/-- index_pool.c:172-202 and 203-234: one of the two (identical) scan loops of
`index_pool_borrow`, running `k` iterations from index `n`. The inner result is
the chosen index with the `out_used` flag. -/
def scan (p : Pool) (time : Nat) : Nat → Nat → Option (Option (Nat × Bool))
  | 0, _ => some none
  | k + 1, n => do
    let t ← p.timestamps[n]?
    if t = TIME_MAX then some (some (n, false))
    else if time ≥ p.exp ∧ time - p.exp > t then some (some (n, true))
    else scan p time k (n + 1)

/-- index_pool.c:184-190, 194-200, 214-220, 224-230: the update done on success. -/
def take (p : Pool) (time n : Nat) : Pool :=
  { p with timestamps := p.timestamps.set n time, lastBorrowed := n }

/-- index_pool.c:143-239 `index_pool_borrow`; result `none` = returns false,
`some (index, used)` = returns true with these outputs. -/
def borrow (p : Pool) (time : Nat) : Option (Pool × Option (Nat × Bool)) := do
  match ← scan p time (p.size - p.lastBorrowed) p.lastBorrowed with
  | some (n, u) => some (take p time n, some (n, u))
  | none =>
    match ← scan p time p.lastBorrowed 0 with
    | some (n, u) => some (take p time n, some (n, u))
    | none => some (p, none)

/-- index_pool.c:241-252 `index_pool_refresh`. -/
def refresh (p : Pool) (time index : Nat) : Option Pool :=
  if index < p.timestamps.length then
    some { p with timestamps := p.timestamps.set index time }
  else none

/-- index_pool.c:254-283 `index_pool_used`. -/
def used (p : Pool) (time index : Nat) : Option Bool :=
  if index ≥ p.size then some false
  else do
    let t ← p.timestamps[index]?
    if t = TIME_MAX then some false
    else if time ≥ p.exp ∧ time - p.exp > t then some false
    else some true

/-- index_pool.c:285-295 `index_pool_return`. -/
def giveBack (p : Pool) (index : Nat) : Option Pool :=
  if index < p.timestamps.length then
    some { p with timestamps := p.timestamps.set index TIME_MAX }
  else none

/-- A call to the API. -/
inductive Op where
  | borrow (time : Nat)
  | refresh (time index : Nat)
  | used (time index : Nat)
  | giveBack (index : Nat)
deriving Repr, DecidableEq

/-- What a call reports to its caller. -/
inductive Res where
  | borrowed (index : Nat) (wasUsed : Bool)
  | notBorrowed
  | bool (b : Bool)
  | unit
deriving Repr, DecidableEq

/-- Dispatch of one call. -/
def step (p : Pool) : Op → Option (Pool × Res)
  | .borrow t => do
    match ← borrow p t with
    | (p', some (i, u)) => some (p', .borrowed i u)
    | (p', none) => some (p', .notBorrowed)
  | .refresh t i => do let p' ← refresh p t i; some (p', .unit)
  | .used t i => do let b ← used p t i; some (p, .bool b)
  | .giveBack i => do let p' ← giveBack p i; some (p', .unit)

/-- A sequence of calls. -/
def run (p : Pool) : List Op → Option (Pool × List Res)
  | [] => some (p, [])
  | op :: ops => do
    let (p', r) ← step p op
    let (p'', rs) ← run p' ops
    some (p'', r :: rs)

end Verif.IndexPool
