/-
Model of the driver's reset and set-up of a device and of the functions around it,
/repo/env/src/net/tinynf/ixgbe.c:450-949, with /repo/env/include/os/pci.h:22-38 and the
part of /repo/env/src/net/tinynf/main.c:83-91 that stores the device's address.

Simplifications.
* A device does something by itself at every access to its registers and while the driver
  sleeps: `Hw.act` may change any register then, as a function of how long that took, of how
  often it was called before, and of what was last written to each register. Writing registers has the effects of the data sheet that the
  comments of the driver quote: CTRL.RST loads reset values into all registers, EIMC clears
  bits of the interrupt mask, RTTDT1C writes the entry chosen by RTTDQSEL, and a receive queue
  that software disables stays enabled until the device clears the bit.
* Accesses take no time and sleeping takes exactly the given time, in nanoseconds.
* PCI configuration registers do not change by themselves; the two low bits of the register
  number are ignored, as the configuration mechanism behind ports 0xCF8 and 0xCFC prescribes,
  and the upper half of register 4 (Status) is cleared where ones are written.
* `fatal`, an undefined shift and an access beyond the 128 KB that were mapped are the result
  `none`. `os_memory_phys_to_virt` succeeds; the physical address stands for its result.
-/
import Verif.Env.IxgbeRegs

set_option autoImplicit false

namespace Verif.IxgbeDevice
open Verif.IxgbeRegs

/-- ixgbe.c:141-316, the registers used here. -/
def CTRL : Nat := 0x00000
def STATUS : Nat := 0x00008
def EEC : Nat := 0x10010
def EIMC (n : Nat) : Nat := if n = 0 then 0x00888 else 0x00AB0 + 4 * (n - 1)
def FCCFG : Nat := 0x03D00
def FCRTH (n : Nat) : Nat := 0x03260 + 4 * n
def FCTRL : Nat := 0x05080
def FTQF (n : Nat) : Nat := 0x0E600 + 4 * n
def FWSM : Nat := 0x10148
def GCREXT : Nat := 0x11050
def HLREG0 : Nat := 0x04240
def MFLCN : Nat := 0x04294
def MPSAR (n : Nat) : Nat := 0x0A600 + 4 * n
def MTA (n : Nat) : Nat := 0x05200 + 4 * n
def PFUTA (n : Nat) : Nat := 0x0F400 + 4 * n
def PFVLVF (n : Nat) : Nat := 0x0F100 + 4 * n
def PFVLVFB (n : Nat) : Nat := 0x0F200 + 4 * n
def RAH (n : Nat) : Nat := 0x0A204 + 8 * n
def RAL (n : Nat) : Nat := 0x0A200 + 8 * n
def RDRXCTL : Nat := 0x02F00
def RTTDCS : Nat := 0x04900
def RTTDQSEL : Nat := 0x04904
def RTTDT1C : Nat := 0x04908
def RXCTRL : Nat := 0x03000
def RXDCTL (n : Nat) : Nat := if n ≤ 63 then 0x01028 + 0x40 * n else 0x0D028 + 0x40 * (n - 64)
def RXPBSIZE (n : Nat) : Nat := 0x03C00 + 4 * n
def TXPBSIZE (n : Nat) : Nat := 0x0CC00 + 4 * n
def TXPBTHRESH (n : Nat) : Nat := 0x04950 + 4 * n
def DTXMXSZRQ : Nat := 0x08100

/-- What a device does: the values after a reset of its registers, of the entries behind
RTTDT1C and of the interrupt mask, and what it does by itself while `ns` nanoseconds pass,
when called for the `k`-th time, given what was last `written` to the registers. -/
structure Hw where
  reset : Regs
  resetT1c : Nat → BitVec 32
  resetEims : Nat → BitVec 32
  act : (ns k : Nat) → (written : Regs) → Regs → Regs

/-- A device. `written` are the values last written to registers, or those after the reset;
`accesses` are the times of all accesses to registers, and `resets` the times of
all resets with the registers just before, both latest first. -/
structure Dev where
  pci : Nat → BitVec 32
  regs : Regs
  written : Regs
  t1c : Nat → BitVec 32
  eims : Nat → BitVec 32
  time : Nat
  count : Nat
  accesses : List Nat
  resets : List (Nat × Regs)

/-- A part of the driver. -/
abbrev M (α : Type) := StateT Dev Option α

/-- `os_clock_sleep_ns`. -/
def sleep (hw : Hw) (ns : Nat) : M Unit := fun d =>
  some ((), { d with time := d.time + ns, count := d.count + 1, regs := hw.act ns d.count d.written d.regs })

/-- ixgbe.c:402-408 `reg_read`. -/
def rd (hw : Hw) (reg : Nat) : M (BitVec 32) := fun d =>
  if reg + 4 ≤ 128 * 1024 then
    let r := hw.act 0 d.count d.written d.regs
    some (r reg, { d with regs := r, count := d.count + 1, accesses := d.time :: d.accesses })
  else none

/-- What the device does when `value` is written to `reg`. -/
def store (hw : Hw) (reg : Nat) (value : BitVec 32) (d : Dev) : Dev :=
  if reg = CTRL ∧ value.getLsbD 26 then
    { d with regs := hw.reset, written := hw.reset, t1c := hw.resetT1c, eims := hw.resetEims, resets := (d.time, d.regs) :: d.resets }
  else if reg = RTTDT1C then
    { d with t1c := fun n => if n = (d.regs RTTDQSEL).toNat % 128 then value else d.t1c n }
  else if reg = 0x00888 ∨ reg = 0x00AB0 ∨ reg = 0x00AB4 then
    { d with eims := fun n => if EIMC n = reg then d.eims n &&& ~~~value else d.eims n }
  else if (List.range 128).any (fun n => reg == RXDCTL n) then
    { d with regs := regWrite d.regs reg (value ||| (d.regs reg &&& bit 25)), written := regWrite d.written reg value }
  else { d with regs := regWrite d.regs reg value, written := regWrite d.written reg value }

/-- ixgbe.c:418-425 `reg_write_raw`, `reg_write`. -/
def wr (hw : Hw) (reg : Nat) (value : BitVec 32) : M Unit := fun d =>
  if reg + 4 ≤ 128 * 1024 then
    some ((), store hw reg value
      { d with regs := hw.act 0 d.count d.written d.regs, count := d.count + 1, accesses := d.time :: d.accesses })
  else none

/-- `find_first_set`, in a part of the driver. -/
def shiftOf (field : BitVec 32) : M Nat := fun d => (findFirstSet field).map fun s => (s, d)

/-- ixgbe.c:410-415 `reg_read_field`. -/
def rdField (hw : Hw) (reg : Nat) (field : BitVec 32) : M (BitVec 32) := do
  let value ← rd hw reg
  let shift ← shiftOf field
  pure ((value >>> shift) &&& (field >>> shift))

/-- ixgbe.c:427-433 `reg_write_field`. -/
def wrField (hw : Hw) (reg : Nat) (field value : BitVec 32) : M Unit := do
  let old ← rd hw reg
  let shift ← shiftOf field
  wr hw reg ((old &&& ~~~field) ||| (value <<< shift))

/-- ixgbe.c:436 `reg_clear`. -/
def clear (hw : Hw) (reg : Nat) : M Unit := wr hw reg 0#32

/-- ixgbe.c:438 `reg_clear_field`. -/
def clearF (hw : Hw) (reg : Nat) (field : BitVec 32) : M Unit := wrField hw reg field 0#32

/-- ixgbe.c:441-446 `reg_set_field`. -/
def setF (hw : Hw) (reg : Nat) (field : BitVec 32) : M Unit := do
  let old ← rd hw reg
  wr hw reg (old ||| field)

/-- ixgbe.c:449 `reg_is_field_cleared`. -/
def cleared (hw : Hw) (reg : Nat) (field : BitVec 32) : M Bool := do
  let value ← rdField hw reg field
  pure (value == 0#32)

/-- `for (size_t n = a; n < a + k; n++)`. -/
def loop (body : Nat → M Unit) : (k a : Nat) → M Unit
  | 0, _ => pure ()
  | k + 1, a => do
    body a
    loop body k (a + 1)

/-- ixgbe.c:375-381, the loop of `IF_AFTER_TIMEOUT`: whether it has timed out. -/
def poll (hw : Hw) (us : Nat) (cond : M Bool) : Nat → M Bool
  | 0 => pure true
  | k + 1 => do
    if !(← cond) then
      pure false
    else
      sleep hw (us / 10 * 1000)
      poll hw us cond k

/-- ixgbe.c:369-382 `IF_AFTER_TIMEOUT`: whether the body is executed. -/
def afterTimeout (hw : Hw) (us : Nat) (cond : M Bool) : M Bool := do
  sleep hw (us % 10 * 1000)
  poll hw us cond 10

/-- ixgbe.c:362-367 `fatal`. -/
def fatal {α : Type} : M α := fun _ => none

/-- `if (b) { m }`. -/
def onlyIf (b : Bool) (m : M Unit) : M Unit := if b then m else pure ()

/-- `!cond`. -/
def negated (cond : M Bool) : M Bool := do
  pure (!(← cond))

/-- pci.h:23-29 `os_pci_read`, ixgbe.c:452-457 `pcireg_read`. -/
def pciRead (reg : Nat) : M (BitVec 32) := fun d => some (d.pci (reg / 4 * 4), d)

/-- pci.h:32-38 `os_pci_write`. -/
def pciWrite (reg : Nat) (value : BitVec 32) : M Unit := fun d =>
  let reg := reg / 4 * 4
  let new := if reg = 4 then (d.pci 4 &&& 0xFFFF0000#32 &&& ~~~value) ||| (value &&& 0x0000FFFF#32) else value
  some ((), { d with pci := fun r => if r = reg then new else d.pci r })

/-- ixgbe.c:460 `pcireg_is_field_cleared`. -/
def pciCleared (reg : Nat) (field : BitVec 32) : M Bool := do
  let value ← pciRead reg
  pure (value &&& field == 0#32)

/-- ixgbe.c:463-469 `pcireg_set_field`. -/
def pciSet (reg : Nat) (field : BitVec 32) : M Unit := do
  let old ← pciRead reg
  pciWrite reg (old ||| field)

/-- ixgbe.c:483-517 of `tn_device_init`: the PCI device; the result is its physical address. -/
def initPci : M (BitVec 64) := do
  let id ← pciRead 0x00
  onlyIf (id != (0x10FB#32 <<< 16) ||| 0x8086#32) fatal
  onlyIf (!(← pciCleared 0x44 (bits 0 1))) fatal
  pciSet 0x04 (bit 2)
  pciSet 0x04 (bit 1)
  pciSet 0x04 (bit 10)
  let low ← pciRead 0x10
  onlyIf (low &&& bit 2 == 0#32 || low &&& bit 1 != 0#32) fatal
  let high ← pciRead 0x14
  pure ((high.setWidth 64 <<< 32) ||| (low &&& ~~~(bits 0 3)).setWidth 64)

/-- ixgbe.c:540-550: disable one receive queue. -/
def disableQueue (hw : Hw) (queue : Nat) : M Unit := do
  clearF hw (RXDCTL queue) (bit 25)
  onlyIf (← afterTimeout hw (1000 * 1000) (negated (cleared hw (RXDCTL queue) (bit 25)))) fatal

/-- ixgbe.c:559-586: what to do if the device does not stop. -/
def flush (hw : Hw) : M Unit := do
  onlyIf (!(← pciCleared 0xAA (bit 5))) fatal
  setF hw HLREG0 (bit 15)
  clearF hw RXCTRL (bit 0)
  setF hw GCREXT (bit 30)
  sleep hw (20 * 1000)
  clearF hw HLREG0 (bit 15)
  clearF hw GCREXT (bit 30)
  setF hw CTRL (bit 26)
  sleep hw (2 * 1000)

/-- ixgbe.c:540-586: stop the device. -/
def initStop (hw : Hw) : M Unit := do
  loop (disableQueue hw) 128 0
  setF hw CTRL (bit 2)
  onlyIf (← afterTimeout hw (1000 * 1000) (negated (cleared hw STATUS (bit 19)))) (flush hw)

/-- ixgbe.c:589-596: reset it. -/
def initReset (hw : Hw) : M Unit := do
  setF hw CTRL (bit 26)
  sleep hw (1000 * 1000)
  sleep hw (10 * 1000 * 1000)

/-- ixgbe.c:600-644: interrupts, flow control, and waiting for the device. -/
def initWait (hw : Hw) : M Unit := do
  wr hw (EIMC 0) 0x7FFFFFFF#32
  loop (fun n => wr hw (EIMC n) 0xFFFFFFFF#32) 2 1
  wrField hw (FCRTH 0) (bits 5 18) ((512#32 * 1024#32 - 0x6000#32) / 32#32)
  onlyIf (← afterTimeout hw (1000 * 1000) (cleared hw EEC (bit 9))) fatal
  onlyIf (← cleared hw EEC (bit 8)) fatal
  onlyIf (← negated (cleared hw FWSM (bits 19 24))) fatal
  onlyIf (← afterTimeout hw (1000 * 1000) (cleared hw RDRXCTL (bit 3))) fatal

/-- ixgbe.c:669-760: filters. -/
def initFilters (hw : Hw) : M Unit := do
  loop (fun n => clear hw (PFUTA n)) (4 * 1024 / 32) 0
  loop (fun n => clear hw (PFVLVF n)) 64 0
  wr hw (MPSAR 0) 1#32
  loop (fun n => clear hw (MPSAR n)) (128 * 2 - 1) 1
  loop (fun n => clear hw (PFVLVFB n)) (64 * 2) 0
  loop (fun n => clear hw (MTA n)) (4 * 1024 / 32) 0
  loop (fun n => clearF hw (FTQF n) (bit 31)) 128 0

/-- ixgbe.c:770-822: receiving. -/
def initReceive (hw : Hw) : M Unit := do
  setF hw RDRXCTL (bit 1)
  clearF hw RDRXCTL (bits 17 21)
  setF hw RDRXCTL (bit 25)
  setF hw RDRXCTL (bit 26)
  loop (fun n => clear hw (RXPBSIZE n)) 7 1
  setF hw MFLCN (bit 3)
  wrField hw FCCFG (bits 3 4) 1#32
  loop (fun n => do wr hw RTTDQSEL (BitVec.ofNat 32 n); clear hw RTTDT1C) 128 0

/-- ixgbe.c:878-910: transmitting. -/
def initTransmit (hw : Hw) : M Unit := do
  setF hw RTTDCS (bit 6)
  loop (fun n => clear hw (TXPBSIZE n)) 7 1
  wrField hw (TXPBTHRESH 0) (bits 0 9) (0xA0#32 - 2048#32 / 1024#32)
  wrField hw DTXMXSZRQ (bits 0 11) 0xFFF#32
  clearF hw RTTDCS (bit 6)

/-- ixgbe.c:475-915 `tn_device_init`; the result is the physical address of the device. -/
def init (hw : Hw) : M (BitVec 64) := do
  let addr ← initPci
  initStop hw
  initReset hw
  initWait hw
  initFilters hw
  initReceive hw
  initTransmit hw
  pure addr

/-- ixgbe.c:921-942 `tn_device_set_promiscuous`. -/
def setPromiscuous (hw : Hw) : M Unit := do
  let was ← negated (cleared hw RXCTRL (bit 0))
  onlyIf was (clearF hw RXCTRL (bit 0))
  setF hw FCTRL (bit 9)
  setF hw FCTRL (bit 8)
  onlyIf was (setF hw RXCTRL (bit 0))

/-- ixgbe.c:944-949 `tn_device_get_mac`. -/
def getMac (hw : Hw) : M (BitVec 64) := do
  let ral ← rd hw (RAL 0)
  let rah ← rd hw (RAH 0)
  pure (ral.setWidth 64 ||| (rah.setWidth 64 <<< 32))

/-- main.c:89-90, the bytes that are stored in `device_macs[n]`. -/
def macBytes (mac : BitVec 64) : List (BitVec 8) :=
  [(mac >>> 0).setWidth 8, (mac >>> 8).setWidth 8, (mac >>> 16).setWidth 8, (mac >>> 24).setWidth 8,
   (mac >>> 32).setWidth 8, (mac >>> 40).setWidth 8]

end Verif.IxgbeDevice
