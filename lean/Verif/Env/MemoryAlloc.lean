/-
Model of /repo/env/src/os/memory_alloc.c (the bump allocator).

Simplifications: `size_t` and addresses are natural numbers below 2^64 with the
wrap-around of the one multiplication that can wrap written out; `halt()` is the
result `none`. What is written through the returned pointers is part of the
state (`mem`) so that the "zero-initialised" promise can be stated.
-/
import Verif.Env.Memory

namespace Verif.MemoryAlloc

/-- memory.h:19 `OS_MEMORY_SIZE`. -/
def OS_MEMORY_SIZE : Nat := 256 * 1024 * 1024

/-- arch/cache.h:5 `CACHE_LINE_SIZE`. -/
def CACHE_LINE_SIZE : Nat := 64

def SIZE_MAX : Nat := 2 ^ 64 - 1

/-- memory_alloc.c:8-9, the globals `memory` and `memory_used_len`, and the memory contents. -/
structure State where
  memory : Nat
  usedLen : Nat
  mem : Mem

/-- memory_alloc.c:37-93 `os_memory_alloc`. -/
def alloc (s : State) (count size : Nat) : Option (Nat × State) :=
  let fullSize := size * count % 2 ^ 64
  let targetAddr := s.memory + s.usedLen
  if SIZE_MAX - CACHE_LINE_SIZE < size then none
  else
    let alignDiv := size + CACHE_LINE_SIZE - (size % CACHE_LINE_SIZE)
    let alignDiff := targetAddr % alignDiv
    let alignPadding := if alignDiff = 0 then 0 else alignDiv - alignDiff
    if alignPadding > OS_MEMORY_SIZE - s.usedLen then none
    else
      let alignedAddr := targetAddr + alignPadding
      let usedLen := s.usedLen + alignPadding
      if fullSize > OS_MEMORY_SIZE - usedLen then none
      else some (alignedAddr, { s with usedLen := usedLen + fullSize })

/-- A byte store by the program, through a pointer it was given. -/
def write (s : State) (a : Nat) (v : UInt8) : State := { s with mem := Memory.store s.mem a v }

end Verif.MemoryAlloc
