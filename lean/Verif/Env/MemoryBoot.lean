/-
Model of where the allocator gets its memory from: the declaration
`extern char* memory;` of /repo/env/src/os/memory_alloc.c:8, and the definitions it is linked with,
`char memory[OS_MEMORY_SIZE];` in /repo/env/src/os/metal/init.c:12 and `char* memory;` in
/repo/env/src/os/linux/init.c:29, which os_init sets (linux/init.c:71-94).

Simplifications: the two declarations of one symbol are linked as on x86-64: the code of
memory_alloc.c reads a pointer, 8 bytes, little-endian, at the address of the symbol. (The C
standard leaves the mismatch undefined.) The huge page given by mmap is an address.
-/
import Verif.Env.MemoryAlloc

set_option autoImplicit false

namespace Verif.MemoryBoot

/-- A pointer read at address `a`. -/
def loadPtr (m : Mem) (a : Nat) : Nat :=
  (m a).toNat + 2 ^ 8 * (m (a + 1)).toNat + 2 ^ 16 * (m (a + 2)).toNat + 2 ^ 24 * (m (a + 3)).toNat +
    2 ^ 32 * (m (a + 4)).toNat + 2 ^ 40 * (m (a + 5)).toNat + 2 ^ 48 * (m (a + 6)).toNat + 2 ^ 56 * (m (a + 7)).toNat

/-- A pointer stored at address `a`. -/
def storePtr (m : Mem) (a p : Nat) : Mem :=
  fun x => if a ≤ x ∧ x < a + 8 then UInt8.ofNat (p / 2 ^ (8 * (x - a))) else m x

/-- The address of the symbol `memory`, the variable `memory_used_len`, and the memory. -/
structure State where
  symbol : Nat
  usedLen : Nat
  mem : Mem

/-- memory_alloc.c:8-9: what the allocator sees. -/
def view (s : State) : MemoryAlloc.State := { memory := loadPtr s.mem s.symbol, usedLen := s.usedLen, mem := s.mem }

/-- memory_alloc.c:37-93 `os_memory_alloc`. -/
def alloc (s : State) (count size : Nat) : Option (Nat × State) :=
  (MemoryAlloc.alloc (view s) count size).map fun (addr, s') => (addr, { s with usedLen := s'.usedLen })

/-- A byte store by the program. -/
def write (s : State) (a : Nat) (v : UInt8) : State := { s with mem := Memory.store s.mem a v }

/-- metal/init.c:11-13: the state at start, with the array at `array`; both variables are zero-initialized. -/
def metal (array : Nat) (mem : Mem) : State := { symbol := array, usedLen := 0, mem := mem }

/-- linux/init.c:28-30, 71-94: the state after `os_init`, with the variable at `slot` and the mapping at `base`. -/
def linux (slot base : Nat) (mem : Mem) : State := { symbol := slot, usedLen := 0, mem := storePtr mem slot base }

end Verif.MemoryBoot
