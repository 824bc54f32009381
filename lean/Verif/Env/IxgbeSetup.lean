/-
Model of the driver's set-up of agents, /repo/env/src/net/tinynf/ixgbe.c:961-1168, and of
the loop that sets all of them up, /repo/env/src/net/tinynf/main.c:94-96.

Simplifications.
* Registers are as in Verif.Env.IxgbeRegs; a poll sees the value that the register has, so
  the bits that enable queues are set at once. `fatal` is the result `none`.
* The arrays of an agent are functions; that they are zero at first is C05. Register
  addresses (`transmit_tail_addrs`, `receive_tail_addr`) are pairs of a device and an offset.
* `phys` is `os_memory_virt_to_phys`; the processor is little-endian.
* Index arithmetic is on natural numbers: all values are far below 2^64.
-/
import Verif.Env.IxgbeRegs
import Verif.Env.MemoryAlloc

set_option autoImplicit false

namespace Verif.IxgbeSetup
open Verif.IxgbeRegs

/-- ixgbe.c:150-316, the registers used here. -/
def DCATXCTRL (n : Nat) : Nat := 0x0600C + 0x40 * n
def DMATXCTL : Nat := 0x04A80
def CTRLEXT : Nat := 0x00018
def RXCTRL : Nat := 0x03000
def SECRXCTRL : Nat := 0x08D00
def SECRXSTAT : Nat := 0x08D04
def TDBAL (n : Nat) : Nat := 0x06000 + 0x40 * n
def TDBAH (n : Nat) : Nat := 0x06004 + 0x40 * n
def TDLEN (n : Nat) : Nat := 0x06008 + 0x40 * n
def TDT (n : Nat) : Nat := 0x06018 + 0x40 * n
def TXDCTL (n : Nat) : Nat := 0x06028 + 0x40 * n
def TDWBAL (n : Nat) : Nat := 0x06038 + 0x40 * n
def TDWBAH (n : Nat) : Nat := 0x0603C + 0x40 * n
/-- ixgbe.c:154, 230-280, with the only index used, `queue_index = 0` (ixgbe.c:1060). -/
def DCARXCTRL : Nat := 0x0100C
def RDBAL : Nat := 0x01000
def RDBAH : Nat := 0x01004
def RDLEN : Nat := 0x01008
def SRRCTL : Nat := 0x01014
def RDT : Nat := 0x01018
def RXDCTL : Nat := 0x01028

/-- network.h:33-42 `struct tn_agent`. -/
structure Agent where
  buffer : Nat
  outputsCount : Nat
  lengths : Nat
  transmitHeads : Nat
  /-- The address of the array `rings`. -/
  ringsArray : Nat
  /-- The address of the array `transmit_tail_addrs`. -/
  tailsArray : Nat
  /-- `rings[n]`. -/
  rings : Nat → Nat
  /-- `rings[n][k].addr`. -/
  descAddr : Nat → Nat → Nat
  /-- `transmit_tail_addrs[n]`, none if it is zero. -/
  tails : Nat → Option (Nat × Nat)
  /-- `receive_tail_addr`. -/
  receiveTail : Option (Nat × Nat)

/-- The allocator, and per device its registers, `tx_enabled` and `rx_enabled`. -/
structure Sys where
  mem : MemoryAlloc.State
  regs : Nat → Regs
  txEnabled : Nat → Bool
  rxEnabled : Nat → Bool

/-- Change one entry of an array. -/
def upd {α : Type} (f : Nat → α) (i : Nat) (v : α) : Nat → α := fun j => if j = i then v else f j

/-- ixgbe.c:992-1038: the register writes of `tn_agent_add_output`. -/
def outputRegs (r : Regs) (queue ringPhys headPhys : Nat) (txEnabled : Bool) : Option Regs := do
  let r := regWrite r (TDBAH queue) (BitVec.ofNat 32 (ringPhys / 2 ^ 32))
  let r := regWrite r (TDBAL queue) (BitVec.ofNat 32 ringPhys)
  let r := regWrite r (TDLEN queue) (256#32 * 16#32)
  let r ← writeField r (TXDCTL queue) (bits 0 6) 60#32
  let r ← writeField r (TXDCTL queue) (bits 8 14) 4#32
  let r := regWrite r (TDWBAH queue) (BitVec.ofNat 32 (headPhys / 2 ^ 32))
  let r := regWrite r (TDWBAL queue) (BitVec.ofNat 32 headPhys ||| 1#32)
  let r ← clearField r (DCATXCTRL queue) (bit 11)
  let r := if txEnabled then r else setField r DMATXCTL (bit 0)
  some (setField r (TXDCTL queue) (bit 25))

/-- ixgbe.c:961-1044 `tn_agent_add_output`. -/
def addOutput (phys : Nat → Nat) (s : Sys) (a : Agent) (device output queue : Nat) : Option (Agent × Sys) :=
  if a.tails output ≠ none then none
  else if queue ≥ 128 then none
  else do
    let free ← isFieldCleared (s.regs device) (TXDCTL queue) (bit 25)
    if !free then none
    else
      let (ring, mem) ← MemoryAlloc.alloc s.mem 256 (2 * 8)
      let bufferPhys := phys a.buffer
      let ringPhys := phys ring
      let headPhys := phys (a.transmitHeads + 4 * (output * 16))
      if headPhys % 16 ≠ 0 then none
      else
        let r ← outputRegs (s.regs device) queue ringPhys headPhys (s.txEnabled device)
        let stuck ← isFieldCleared r (TXDCTL queue) (bit 25)
        if stuck then none
        else
          let a := { a with
            rings := upd a.rings output ring
            descAddr := upd a.descAddr output fun k => bufferPhys + k * 2048
            tails := upd a.tails output (some (device, TDT queue)) }
          some (a, { s with mem := mem, regs := upd s.regs device r, txEnabled := upd s.txEnabled device true })

/-- ixgbe.c:1111-1126: what is done once per device. -/
def enableReceive (r : Regs) : Option Regs := do
  let r := setField r SECRXCTRL (bit 1)
  let late ← isFieldCleared r SECRXSTAT (bit 0)
  if late then none
  else
    let r := setField r RXCTRL (bit 0)
    let r ← clearField r SECRXCTRL (bit 1)
    some (setField r CTRLEXT (bit 16))

/-- ixgbe.c:1078-1107: the registers of the receive queue. -/
def receiveRegs (r : Regs) (ringPhys : Nat) : Option Regs := do
  let r := regWrite r RDBAH (BitVec.ofNat 32 (ringPhys / 2 ^ 32))
  let r := regWrite r RDBAL (BitVec.ofNat 32 ringPhys)
  let r := regWrite r RDLEN (256#32 * 16#32)
  let r ← writeField r SRRCTL (bits 0 4) 2#32
  let r := setField r SRRCTL (bit 28)
  let r := setField r RXDCTL (bit 25)
  let stuck ← isFieldCleared r RXDCTL (bit 25)
  if stuck then none else some (regWrite r RDT 255#32)

/-- ixgbe.c:1050-1134 `tn_agent_set_input`. -/
def setInput (phys : Nat → Nat) (s : Sys) (a : Agent) (device : Nat) : Option (Agent × Sys) :=
  if a.receiveTail ≠ none then none
  else if a.tails 0 = none then none
  else do
    let free ← isFieldCleared (s.regs device) RXDCTL (bit 25)
    if !free then none
    else
      let r ← receiveRegs (s.regs device) (phys (a.rings 0))
      let r ← (if s.rxEnabled device then some r else enableReceive r)
      let r ← clearField r DCARXCTRL (bit 12)
      some ({ a with receiveTail := some (device, RDT) },
        { s with regs := upd s.regs device r, rxEnabled := upd s.rxEnabled device true })

/-- ixgbe.c:1160-1165: the loop of `tn_agent_init` from device `n` on, `k` more times. -/
def outputsLoop (phys : Nat → Nat) (input : Nat) : (k n : Nat) → Sys → Agent → Option (Agent × Sys)
  | 0, _, s, a => some (a, s)
  | k + 1, n, s, a =>
    if n ≠ input then do
      let trueIndex := if n > input then n - 1 else n
      let (a, s) ← addOutput phys s a n trueIndex (input * a.outputsCount + trueIndex)
      outputsLoop phys input k (n + 1) s a
    else outputsLoop phys input k (n + 1) s a

/-- ixgbe.c:1140-1168 `tn_agent_init`. -/
def agentInit (phys : Nat → Nat) (s : Sys) (input devices : Nat) : Option (Agent × Sys) :=
  if devices = 0 then none
  else if input ≥ devices then none
  else if devices - 1 = 0 then none
  else do
    let outs := devices - 1
    let (buffer, mem) ← MemoryAlloc.alloc s.mem 256 2048
    let (lengths, mem) ← MemoryAlloc.alloc mem outs 8
    let (heads, mem) ← MemoryAlloc.alloc mem outs (16 * 4)
    let (rings, mem) ← MemoryAlloc.alloc mem outs 8
    let (tails, mem) ← MemoryAlloc.alloc mem outs 8
    let (a, s) ← outputsLoop phys input devices 0 { s with mem := mem }
      { buffer := buffer, outputsCount := outs, lengths := lengths, transmitHeads := heads, ringsArray := rings,
        tailsArray := tails, rings := fun _ => 0, descAddr := fun _ _ => 0, tails := fun _ => none, receiveTail := none }
    setInput phys s a input

/-- main.c:94-96: the loop over all agents from `n` on, `k` more times. -/
def agentsLoop (phys : Nat → Nat) (devices : Nat) : (k n : Nat) → Sys → Option (List Agent × Sys)
  | 0, _, s => some ([], s)
  | k + 1, n, s => do
    let (a, s) ← agentInit phys s n devices
    let (as, s) ← agentsLoop phys devices k (n + 1) s
    some (a :: as, s)

/-- main.c:94-96, all agents. -/
def setup (phys : Nat → Nat) (s : Sys) (devices : Nat) : Option (List Agent × Sys) := agentsLoop phys devices devices 0 s

end Verif.IxgbeSetup
