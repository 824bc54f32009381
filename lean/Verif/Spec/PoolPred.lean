/-
The predicates, lemmas and loop invariants with which VeriFast proves /repo/env/src/structs/index_pool.c, and the invariant
of /repo/env/src/os/memory_alloc.c.

Simplifications (whole file):
* A predicate on memory is a proposition on the model's `struct index_pool` or allocator state; permissions are not
  modelled, only contents.
* `size_t` and `time_t` are natural numbers; the pure functions take indices that may be any integer, as in VeriFast.
-/
import Verif.Env.IndexPool
import Verif.Env.MemoryAlloc
import Verif.Spec.Buckets

set_option autoImplicit false

namespace Verif.PoolPred
open Verif.Buckets (nth drop allEq)
open Verif.IndexPool (Pool TIME_MAX)

/-- index_pool.c:17 `idx_in_bounds`. -/
def idxInBounds {α : Type} (i : Int) (xs : List α) : Prop := 0 ≤ i ∧ i < xs.length

/-- index_pool.c:18 `nth_eq`; `dflt` is VeriFast's unknown value of `nth` out of bounds. -/
def nthEq {α : Type} (dflt : α) (i : Int) (xs : List α) (x : α) : Prop := nth dflt i xs = x

/-- index_pool.c:20-26 `poolp_raw`. -/
def poolpRaw (p : Pool) (size exp lastBorrowed : Nat) (timestamps : List Nat) : Prop :=
  p.size = size ∧ p.exp = exp ∧ p.lastBorrowed = lastBorrowed ∧ p.timestamps = timestamps ∧ timestamps.length = size

/-- index_pool.c:28-31 `poolp_truths`. -/
def poolpTruths (dflt : Nat) (timestamps : List Nat) (items : GMap Nat Nat) : Prop :=
  items.Distinct ∧
  (∀ k : Nat, (idxInBounds k timestamps ∧ ¬ nthEq dflt k timestamps TIME_MAX) ↔ items.has k = true) ∧
  ∀ k : Nat, ¬ items.has k = true ∨ items.get k = some (nth dflt k timestamps)

/-- index_pool.c:33-36 `poolp`. -/
def poolp (dflt : Nat) (p : Pool) (size exp : Nat) (items : GMap Nat Nat) : Prop :=
  ∃ lastBorrowed timestamps, poolpRaw p size exp lastBorrowed timestamps ∧ poolpTruths dflt timestamps items ∧
    lastBorrowed ≤ size

/-- index_pool.c:96-99, the invariant of the loop of `index_pool_alloc`: the timestamps from `n` on. -/
def allocInv (size n : Nat) (timestamps : List Nat) : Prop :=
  n ≤ size ∧ timestamps.length = size ∧ allEq TIME_MAX (drop n timestamps)

/-- index_pool.c:173-179 and 204-209: what the invariants of the two loops of `index_pool_borrow` say of the indices from
`lo` to `n`. -/
def passed (dflt : Nat) (timestamps : List Nat) (time exp lo n : Nat) : Prop :=
  (∀ k : Nat, ¬ (lo ≤ k ∧ k < n) ∨ ¬ nthEq dflt k timestamps TIME_MAX) ∧
  ∀ k : Nat, ¬ (lo ≤ k ∧ k < n) ∨ (time < exp ∨ time - exp ≤ nth dflt k timestamps)

/-- index_pool.c:173-179, the invariant of the first loop of `index_pool_borrow`. -/
def firstInv (dflt : Nat) (p : Pool) (size exp lastBorrowed : Nat) (timestamps : List Nat) (items : GMap Nat Nat)
    (time n : Nat) : Prop :=
  poolpRaw p size exp lastBorrowed timestamps ∧ poolpTruths dflt timestamps items ∧ lastBorrowed ≤ size ∧
  passed dflt timestamps time exp lastBorrowed n

/-- index_pool.c:204-209, the invariant of the second loop of `index_pool_borrow`. -/
def secondInv (dflt : Nat) (p : Pool) (size exp lastBorrowed : Nat) (timestamps : List Nat) (items : GMap Nat Nat)
    (time n : Nat) : Prop :=
  poolpRaw p size exp lastBorrowed timestamps ∧ poolpTruths dflt timestamps items ∧
  passed dflt timestamps time exp 0 n

/-- memory_alloc.c:12-18 `globals_invariant`, which memory_alloc.c:20-27 assumes at each call. -/
def globalsInvariant (s : MemoryAlloc.State) : Prop :=
  s.memory ≠ 0 ∧ s.memory + MemoryAlloc.OS_MEMORY_SIZE ≤ 2 ^ 64 - 1 ∧ s.usedLen ≤ MemoryAlloc.OS_MEMORY_SIZE ∧
  ∀ i, s.usedLen ≤ i → i < MemoryAlloc.OS_MEMORY_SIZE → s.mem (s.memory + i) = 0

end Verif.PoolPred
