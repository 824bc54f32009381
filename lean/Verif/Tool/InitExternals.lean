/-
Model of the functions that stand for the operating system while the tool runs a program's initialization
(/repo/tool/klint/externals/os/memory.py, config.py and pci.py), of the BARs of a device (/repo/tool/klint/fullstack/device.py:100-124)
and of the code they stand for that is not modelled elsewhere: /repo/env/src/os/pci.c, the two translations of addresses in
/repo/env/src/os/linux/memory.c and metal/memory.c, and the alignment of
/repo/env/src/os/dpdk/memory.c:7-16.

Simplifications (whole file):
* A symbolic expression is its value as a function of an assignment `ρ` of all symbols; `con ρ` are the constraints of the path.
  `definitely_true` (kalm/utils.py:44) is "for all assignments that meet the constraints". An exception or a failed assertion is `none`.
* Numbers are 64 bits wide (`state.sizes` of x86-64); arithmetic on natural numbers has its wrap-around written out.
* clock.py (`os_clock_sleep_ns` does nothing) and log.py (`os_debug` prints) change no state; they are not modelled.
-/
import Verif.Env.MemoryAlloc
import Verif.Env.Memory
import Verif.Tool.Heap
import Verif.Tool.Pci
import Mathlib.Data.Nat.Log

set_option autoImplicit false

namespace Verif.Tool.InitExternals

/-- Subtraction of 64-bit numbers. -/
def sub64 (a b : Nat) : Nat := (a + 2 ^ 64 - b % 2 ^ 64) % 2 ^ 64

/-- memory.py:18-36 `os_memory_alloc.run`, with the constraints on the address of heap.py:44-49. The result is a new symbol: given
is what its value must satisfy in each assignment. That the size is a constant (line 20) is in its type. -/
noncomputable def memoryAlloc {Env : Type} (con : Env → Prop) (count : Env → Nat) (size : Nat) : Option (Env → Nat → Prop) :=
  open Classical in
  if ∀ ρ, con ρ → count ρ = 1 ∨ count ρ * size ≤ 2 ^ 64 - 1 then
    if size > 4096 then none
    else some fun ρ result => result < 2 ^ 64 ∧ result ≠ 0 ∧ result ≤ sub64 (sub64 (2 ^ 64 - 1) (count ρ * size)) 1 ∧
      ∃ multiplier, multiplier < 2 ^ 64 ∧ result = multiplier * (size + 64 - size % 64) % 2 ^ 64
  else none

/-- memory.py:18-36: the memory allocated, heap.py:21-66. -/
def memoryContents (count size : Nat) (contents : Nat → Heap.Bits) (fractions : Nat → Nat) : Option Heap.Obj :=
  Heap.allocate count size false (some (List.replicate (size * 8) false)) (some 100) contents fractions

/-- config.py:16-35 `os_config_try_get.run` for a sequence of calls with the given names: the paths, each with the result of each
call, which is a symbol or "not found". `known` are the items of `ConfigMetadata` on this path and `next` is the next new symbol.
The guard of config.py:35 is a new symbol in each call, so that both cases are always possible (kalm/utils.py:87-100). The items are
changed in the state in which the name is found only: states are copied with their metadata (kalm/plugins/metadata.py:18-20). -/
def tryGetPaths : List (List UInt8 × Nat) → Nat → List (List UInt8) → List (List (Option Nat))
  | _, _, [] => [[]]
  | known, next, name :: names =>
    (match known.lookup name with
      | some symbol => (tryGetPaths known next names).map (some symbol :: ·)
      | none => (tryGetPaths ((name, next) :: known) (next + 1) names).map (some next :: ·)) ++
    (tryGetPaths known next names).map (none :: ·)

/-- pci.py:56, 62, 66: what the constraints say of the array of addresses, each of 8 bytes, lowest first. -/
def pciAddresses (values : List (BitVec 64)) : Prop :=
  values.length = 2 ∧ (∀ v ∈ values, v &&& 0xFFFFFFFFFFF8E000#64 = 0#64) ∧ values.getD 0 0 ≠ values.getD 1 0

/-- pci.py:54-71 `os_pci_enumerate.run`: `known` is the array of the first call, if there was one, and `fresh` the address that
`allocate` would give. Returns the pointer stored in `out_devices`, the count, and the array known afterwards. -/
def pciEnumerate (known : Option Nat) (fresh : Nat) : Nat × Nat × Option Nat :=
  match known with
  | none => (fresh, 2, some fresh)
  | some ptr => (ptr, 2, some ptr)

/-- pci.py:13-24 `get_device`: the index of the device, which must have one value (`eval_one`), for addresses `values` and the
address `a` of an access. An index outside the array is not considered (line 16). -/
def getDevice (values : List (BitVec 64)) (a : Pci.Address) : Option Nat :=
  match (List.range values.length).filter fun i =>
      (values.getD i 0).extractLsb' 0 8 == a.bus && (values.getD i 0).extractLsb' 8 8 == a.device.zeroExtend 8 &&
      (values.getD i 0).extractLsb' 16 8 == a.function.zeroExtend 8 with
  | [i] => some i
  | _ => none

/-- os/pci.h:12-17 `struct os_pci_address`: the bytes in memory. -/
structure PciAddress where
  bus : BitVec 8
  device : BitVec 8
  function : BitVec 8
  padding : BitVec 40

/-- The 8 bytes of `struct os_pci_address` as a number, lowest first (x86-64). -/
def PciAddress.value (a : PciAddress) : BitVec 64 := a.padding ++ (a.function ++ (a.device ++ a.bus))

/-- /repo/env/src/os/pci.c:7-13 `os_pci_enumerate` over the static table `addresses` (line 5), the table being given as bytes at
`table`: the pointer stored, the count, and the allocator afterwards. -/
def osPciEnumerate (s : MemoryAlloc.State) (table count : Nat) : Option (Nat × Nat × MemoryAlloc.State) :=
  match MemoryAlloc.alloc s count 8 with
  | none => none
  | some (p, s) => some (p, count, { s with mem := Memory.copy s.mem table p (count * 8) })

/-- device.py:119, 121: BAR0, the low 32 bits of the address with the bits of a 64-bit memory BAR. The tool stores an expression of 64
bits; an instruction that reads a port gets 64 bits from the helper of amd64 and keeps the low 32. -/
def bar0 (phys : BitVec 64) : BitVec 32 := ((phys &&& 0xFFFFFFFF#64) ||| 0b0100#64).extractLsb' 0 32

/-- device.py:120, 122: BAR1, the high 32 bits. -/
def bar1 (phys : BitVec 64) : BitVec 32 := (phys >>> 32).extractLsb' 0 32

/-- ixgbe.c:504-514: the address the driver computes from the BARs, or `none` for `fatal`. `BITS(0, 3)` is unsigned and has 32 bits. -/
def driverBar (low high : BitVec 32) : Option (BitVec 64) :=
  if low &&& 4#32 = 0#32 ∨ low &&& 2#32 ≠ 0#32 then none
  else some ((high.zeroExtend 64 <<< 32) ||| (low &&& ~~~0xF#32).zeroExtend 64)

/-- A device, device.py:14: its physical address is the symbol `phys`, device.py:108. -/
structure Device where
  phys : Nat
  virt : Nat
  barSize : Nat

/-- memory.py:44-57 `os_memory_phys_to_virt.run`: `var` is the one symbol that occurs in the address (lines 45-46), and an
assignment gives each symbol a value. -/
noncomputable def physToVirt (con : (Nat → BitVec 64) → Prop) (devices : List Device) (var : Nat) (addr : (Nat → BitVec 64) → BitVec 64)
    (size : Nat) : Option Nat :=
  open Classical in
  if ∀ ρ, con ρ → addr ρ = ρ var then
    match devices.find? fun d => decide (∀ ρ, con ρ → ρ var = ρ d.phys) with
    | none => none
    | some d => if size > d.barSize then none else some d.virt
  else none

/-- memory.py:65-66 `os_memory_virt_to_phys.run`. -/
def virtToPhys (addr : Nat) : Nat := addr

/-- dpdk/memory.c:9-13: the alignment `os_memory_alloc` asks DPDK for; `rte_align64pow2` rounds up to a power of two. -/
def dpdkAlign (count size : Nat) : Nat := if 2 ^ Nat.clog 2 (count * size % 2 ^ 64) < 64 then 64 else 2 ^ Nat.clog 2 (count * size % 2 ^ 64)

/-- metal/memory.c:10-14 `os_memory_virt_to_phys`. -/
def metalVirtToPhys (addr : Nat) : Nat := addr

/-- linux/memory.c:69-112 `os_memory_virt_to_phys`: `pagemap` is the file `/proc/self/pagemap`, 64-bit numbers by page. `abort` is
`none`; the system calls succeed. The offset (line 74) is of a type with 63 bits for non-negative numbers. -/
def linuxVirtToPhys (pageSize : Nat) (pagemap : Nat → BitVec 64) (addr : Nat) : Option Nat :=
  let page := addr / pageSize
  let mapOffset := page * 8 % 2 ^ 64
  if mapOffset ≥ 2 ^ 63 then none
  else
    let metadata := pagemap (mapOffset / 8)
    if metadata &&& 0x8000000000000000#64 = 0#64 then none
    else
      let pfn := metadata &&& 0x7FFFFFFFFFFFFF#64
      if pfn = 0#64 then none
      else some ((pfn.toNat * pageSize + addr % pageSize) % 2 ^ 64)

end Verif.Tool.InitExternals
