/-
Model of the memory and configuration helpers:
/repo/env/include/os/memory.h, /repo/env/src/os/config.c, /repo/env/include/os/config.h.

Simplifications (whole file):
* Memory is a total function from addresses to bytes; the helpers are only ever
  given ranges their caller owns (VeriFast `chars` predicates), so address
  arithmetic does not wrap.
* `unsigned` is 32 bits, `unsigned short` 16 bits, little endian (x86-64).
-/
import Mathlib.Data.List.Range

namespace Verif

/-- Byte-addressed memory. -/
abbrev Mem := Nat → UInt8

/-- The `n` bytes at address `a` (VeriFast `chars(a, n, _)`). -/
def bytesAt (m : Mem) (a n : Nat) : List UInt8 := (List.range n).map fun i => m (a + i)

namespace Memory

/-- memory.h:54-66, the loop of `os_memory_eq` at index `n` with `k` iterations left. -/
def eqLoop (m : Mem) (a b : Nat) : Nat → Nat → Bool
  | 0, _ => true
  | k + 1, n => if m (a + n) ≠ m (b + n) then false else eqLoop m a b k (n + 1)

/-- memory.h:47-68 `os_memory_eq`. -/
def memEq (m : Mem) (a b size : Nat) : Bool := eqLoop m a b size 0

/-- memory.h:98, 110, 121: one mixing round `hash = (hash >> 5) + hash + value`. -/
def mix (h v : BitVec 32) : BitVec 32 := (h >>> 5) + h + v

/-- `__builtin_memcpy(&value, obj, sizeof(unsigned))`, memory.h:97. -/
def load32 (m : Mem) (a : Nat) : BitVec 32 :=
  (m (a + 3)).toBitVec ++ (m (a + 2)).toBitVec ++ (m (a + 1)).toBitVec ++ (m a).toBitVec

/-- `__builtin_memcpy(&value, obj, sizeof(unsigned short))`, memory.h:109, promoted to `unsigned`. -/
def load16 (m : Mem) (a : Nat) : BitVec 32 :=
  ((m (a + 1)).toBitVec ++ (m a).toBitVec).zeroExtend 32

/-- memory.h:120, promoted to `unsigned`. -/
def load8 (m : Mem) (a : Nat) : BitVec 32 := (m a).toBitVec.zeroExtend 32

/-- memory.h:87-103, the word loop of `os_memory_hash`: returns hash, address and
remaining size when `obj_size < 4`. -/
def hashWords (m : Mem) (h : BitVec 32) (a size : Nat) : BitVec 32 × Nat × Nat :=
  if 4 ≤ size then hashWords m (mix h (load32 m a)) (a + 4) (size - 4) else (h, a, size)
termination_by size

/-- memory.h:72-127 `os_memory_hash`. -/
def hash (m : Mem) (a size : Nat) : BitVec 32 :=
  let (h, a, size) := hashWords m 0 a size
  let (h, a) := if size &&& 2 ≠ 0 then (mix h (load16 m a), a + 2) else (h, a)
  if size &&& 1 ≠ 0 then mix h (load8 m a) else h

/-- One byte store. -/
def store (m : Mem) (a : Nat) (v : UInt8) : Mem := fun x => if x = a then v else m x

/-- memory.h:138-149, the loop of `os_memory_copy`. -/
def copyLoop (m : Mem) (src dst : Nat) : Nat → Nat → Mem
  | 0, _ => m
  | k + 1, n => copyLoop (store m (dst + n) (m (src + n))) src dst k (n + 1)

/-- memory.h:130-150 `os_memory_copy`. -/
def copy (m : Mem) (src dst size : Nat) : Mem := copyLoop m src dst size 0

end Memory

namespace Config

/-- A NUL-terminated C string with the given characters: character `n`, the
terminator at the end, `none` (undefined behaviour) past it. -/
def charAt (s : List UInt8) (n : Nat) : Option UInt8 :=
  if n < s.length then s[n]? else if n = s.length then some 0 else none

/-- config.c:15-29 the loop of `string_compare`, `k` bounding the iterations (the C
loop has no bound; running out is reported as `none`, like undefined behaviour). -/
def cmpLoop (a b : List UInt8) : Nat → Nat → Option Bool
  | 0, _ => none
  | k + 1, n => do
    let x ← charAt a n
    let y ← charAt b n
    if x ≠ y then some false
    else if x = 0 then some true
    else cmpLoop a b k (n + 1)

/-- config.c:10-31 `string_compare`. -/
def stringCompare (a b : List UInt8) : Option Bool := cmpLoop a b (a.length + 1) 0

/-- config.c:33-47 `os_config_try_get` over the static table `items` (config.c:8):
`some none` = returns false, `some (some v)` = returns true and writes `v`. -/
def tryGet : List (List UInt8 × Nat) → List UInt8 → Option (Option Nat)
  | [], _ => some none
  | (name, v) :: rest, wanted => do
    if ← stringCompare name wanted then some (some v) else tryGet rest wanted

/-- Reinterpret a 64-bit value as `int64_t`. -/
def toI64 (v : Nat) : Int := if v < 2 ^ 63 then v else (v : Int) - 2 ^ 64

/-- config.h:15-27 `os_config_get`. -/
def get (items : List (List UInt8 × Nat)) (name : List UInt8) (min max : Nat) :
    Option (Option Nat) := do
  match ← tryGet items name with
  | none => some none
  | some v =>
    if min ≠ 0 ∧ toI64 v < toI64 min then some none
    else if v ≤ max then some (some v) else some none

/-- config.h:31-39 `os_config_get_u64`. -/
def getU64 (items : List (List UInt8 × Nat)) (name : List UInt8) : Option (Option Nat) := do
  match ← get items name 0 (2 ^ 64 - 1) with
  | none => some none
  | some v => some (some v)

/-- config.h:41-49 `os_config_get_u32`, with the cast to 32 bits. -/
def getU32 (items : List (List UInt8 × Nat)) (name : List UInt8) : Option (Option Nat) := do
  match ← get items name 0 (2 ^ 32 - 1) with
  | none => some none
  | some v => some (some (v % 2 ^ 32))

/-- config.h:51-59 `os_config_get_u16`, with the cast to 16 bits. -/
def getU16 (items : List (List UInt8 × Nat)) (name : List UInt8) : Option (Option Nat) := do
  match ← get items name 0 (2 ^ 16 - 1) with
  | none => some none
  | some v => some (some (v % 2 ^ 16))

/-- config.h:61-70 `os_config_get_size`. -/
def getSize (items : List (List UInt8 × Nat)) (name : List UInt8) : Option (Option Nat) := do
  match ← get items name 0 ((2 ^ 64 - 1) / 64) with
  | none => some none
  | some v => some (some v)

/-- config.h:72-80 `os_config_get_time`; time.h defines `TIME_MIN` as 0 and
`TIME_MAX` as UINT64_MAX. -/
def getTime (items : List (List UInt8 × Nat)) (name : List UInt8) : Option (Option Nat) := do
  match ← get items name 0 (2 ^ 64 - 1) with
  | none => some none
  | some v => some (some v)

end Config
end Verif
