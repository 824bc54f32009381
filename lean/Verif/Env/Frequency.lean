/-
Model of how the frequency of the time stamp counter is found: /repo/env/include/arch/tsc.h, /repo/env/include/arch/msr.h,
/repo/env/src/os/metal/init.c, /repo/env/src/os/linux/init.c, /repo/env/src/os/dpdk/init.c, and the emulation in
/repo/tool/kalm/pyvex/rdmsr.py.
-/
import Verif.Env.Endian

set_option autoImplicit false

namespace Verif.Frequency

/-- dpdk/init.c:17-20, the loop that removes factors of ten. It does not stop for zero, which line 13 excludes; here it stops then. -/
def reduce (num den : Nat) : Nat × Nat :=
  if h : num % 10 = 0 ∧ num ≠ 0 then reduce (num / 10) (den / 10) else (num, den)
termination_by num
decreasing_by omega

/-- dpdk/init.c:10-21 `os_init`, for the answer of `rte_get_tsc_hz`: the numerator and the denominator, none if it panics. -/
def dpdkInit (hz : Nat) : Option (Nat × Nat) :=
  if hz = 0 then none else some (reduce hz 1000000000)

/-- What the instruction RDMSR leaves in the registers: the low half of the MSR in rax, the high half in rdx, and zeros above. -/
def rdmsr (msr : BitVec 64) : BitVec 64 × BitVec 64 :=
  ((msr.setWidth 32).setWidth 64, ((msr >>> 32).setWidth 32).setWidth 64)

/-- The register that the compiler picks for the output of the assembly in msr.h:9. The constraint `A` stands for the pair of
registers only where the value does not fit in one; a `uint64_t` fits in one on x86-64, and the compiler may take either. -/
inductive Pick where
  | rax
  | rdx
  deriving DecidableEq

/-- msr.h:6-11 `msr_read`, for the contents of the MSR with that index. That the other register changes too, of which the compiler
is not told, is not modelled. -/
def msrRead (p : Pick) (msrs : BitVec 32 → BitVec 64) (index : BitVec 64) : BitVec 64 :=
  let r := rdmsr (msrs (index.setWidth 32))
  match p with
  | .rax => r.1
  | .rdx => r.2

/-- tsc.h:12-24 `tsc_get_nhz` for an MSR-reading function. -/
def tscGetNhz (readMsr : BitVec 64 → BitVec 64) : Nat × Nat :=
  (((readMsr 0xCE#64 >>> 8) &&& 0xFF#64).toNat, 10)

/-- metal/init.c:15 `os_init`. -/
def metalInit (p : Pick) (msrs : BitVec 32 → BitVec 64) : Nat × Nat := tscGetNhz (msrRead p msrs)

/-- linux/init.c:67 with `linux_msr_read` (linux/init.c:32-54), the part of `os_init` that finds the frequency. `file` is what the
file /dev/cpu/0/msr has at each offset, eight bytes, none if it cannot be opened or read (abort). -/
def linuxInit (file : Option (BitVec 64 → BitVec 64)) : Option (Nat × Nat) :=
  file.map fun f => tscGetNhz f

/-- rdmsr.py:11-20 `amd64g_rdmsr`, under an assignment of values to its symbols: `high` and `low` to the fresh ones, `freq` to that
of kalm/clock.py:4. The results are eax and edx; none for another register than 0xCE (an exception). The names `claripy` and `clock`, which
that file does not import, are taken to be meant. -/
def emulated (freq : BitVec 8) (high low : BitVec 32) (msr : BitVec 32) : Option (BitVec 32 × BitVec 32) :=
  if msr = 0xCE#32 then some ((low.extractLsb 31 16) ++ freq ++ (low.extractLsb 7 0), high) else none

end Verif.Frequency
