/-
Model of /repo/env/src/os/dpdk/memory.c, the allocator on DPDK.

Simplifications: `size_t` and addresses are natural numbers below 2^64, with the wrap-around of the multiplication written out. DPDK is a
library outside of the repository; its functions are as documented: see `align64pow2` and `Documented`.
-/
import Mathlib.Data.Nat.Log

set_option autoImplicit false

namespace Verif.DpdkMemory

/-- rte_align64pow2 of DPDK: the next power of two, which wraps to zero for zero and where it does not fit in 64 bits. -/
def align64pow2 (v : Nat) : Nat := if v = 0 ∨ 2 ^ 63 < v then 0 else 2 ^ Nat.clog 2 v

/-- dpdk/memory.c:10-13: the alignment that is asked for. -/
def align (count size : Nat) : Nat :=
  let a := align64pow2 (count * size % 2 ^ 64)
  if a < 64 then 64 else a

/-- dpdk/memory.c:7-16 `os_memory_alloc`, for what rte_calloc returns for a number of items, their size and an alignment. 0 is NULL. -/
def alloc (calloc : Nat → Nat → Nat → Nat) (count size : Nat) : Nat := calloc count size (align count size)

/-- What DPDK documents of rte_calloc: it returns NULL if there is not enough memory, if nothing is asked for, or if the alignment is not a
power of two; otherwise a block of memory with the alignment, which does not end beyond the address space. That the block is zeroed
and overlaps no other is documented too and is not needed here. -/
structure Documented (calloc : Nat → Nat → Nat → Nat) : Prop where
  nothing : ∀ c s a, c * s = 0 → calloc c s a = 0
  power : ∀ c s a, (¬ ∃ k, a = 2 ^ k) → calloc c s a = 0
  aligned : ∀ c s a, calloc c s a ≠ 0 → calloc c s a % a = 0 ∧ calloc c s a + c * s < 2 ^ 64

end Verif.DpdkMemory
