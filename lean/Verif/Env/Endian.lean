/-
Model of /repo/env/include/arch/endian.h (on a little-endian machine) and of
/repo/env/src/os/metal/clock.c.
-/
import Verif.Base

set_option autoImplicit false

namespace Verif.Endian

/-- endian.h:5 `swap16` of a uint16_t, stored to a uint16_t. The operand is promoted to
int (32 bits). -/
def swap16 (v : BitVec 16) : BitVec 16 :=
  ((v.setWidth 32 <<< 8) ||| (v.setWidth 32 >>> 8)).setWidth 16

/-- endian.h:6 `swap32` of a uint32_t. -/
def swap32 (v : BitVec 32) : BitVec 32 :=
  (v <<< 24) ||| ((v <<< 8) &&& 0xFF#32) ||| ((v >>> 8) &&& 0xFF#32) ||| (v >>> 24)

/-- endian.h:7 `swap64` of a uint64_t. -/
def swap64 (v : BitVec 64) : BitVec 64 :=
  (v <<< 56) ||| ((v <<< 40) &&& 0xFF#64) ||| ((v <<< 24) &&& 0xFF#64) ||| ((v <<< 8) &&& 0xFF#64) |||
  ((v >>> 8) &&& 0xFF#64) ||| ((v >>> 24) &&& 0xFF#64) ||| ((v >>> 40) &&& 0xFF#64) ||| (v >>> 56)

/-- endian.h:10-21, little-endian: `cpu_to_le*`/`le_to_cpu*` do nothing. -/
def cpuToLe {w : Nat} (v : BitVec w) : BitVec w := v

end Verif.Endian

namespace Verif.Clock

/-- os/clock.h:14 `os_clock_time_ns`, from the time stamp counter: 64-bit arithmetic. -/
def timeNs (num den tsc : Nat) : Nat := tsc / num * den % 2 ^ 64

/-- metal/clock.c:3-9 `os_clock_sleep_ns`: `clock k` is the answer of the k-th call of
os_clock_time_ns; the result is the number of calls made in the loop, none if it has not
stopped within `fuel` of them. -/
def sleep (clock : Nat → Nat) (ns fuel : Nat) : Option Nat :=
  let target := (clock 0 + ns) % 2 ^ 64
  (List.range fuel).find? fun k => clock (k + 1) == target

/-- linux/clock.c:11-16: the nanosleep request (seconds, nanoseconds). -/
def linuxRequest (ns : Nat) : Nat × Nat := (ns / 1000000000, ns % 1000000000)

/-- dpdk/clock.c:5: the argument of rte_delay_us, which is an `unsigned` (32 bits). -/
def dpdkDelayUs (ns : Nat) : Nat := (ns * 1000 % 2 ^ 64) % 2 ^ 32

end Verif.Clock
