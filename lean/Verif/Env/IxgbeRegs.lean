/-
Model of the driver's helpers for device registers and of its timeouts,
/repo/env/src/net/tinynf/ixgbe.c:112-113, 368-449.

Simplifications. A device's registers are a function from offsets to 32-bit values that
reads back what was written; the processor is little-endian. Time is in microseconds.
-/

set_option autoImplicit false

namespace Verif.IxgbeRegs

/-- The registers of one device, by offset. -/
abbrev Regs := Nat → BitVec 32

/-- ixgbe.c:112 `BIT`. -/
def bit (n : Nat) : BitVec 32 := 1#32 <<< n

/-- ixgbe.c:113 `BITS`. -/
def bits (start stop : Nat) : BitVec 32 :=
  (if stop = 31 then 0#32 else 0xFFFFFFFF#32 <<< (stop + 1)) ^^^ (0xFFFFFFFF#32 <<< start)

/-- ixgbe.c:390-394, the loop of `find_first_set` from `n` on. The bound on the iterations is
enough for a value that is not zero: a shift by 32 would be undefined. -/
def ffsLoop (value : BitVec 32) : (k n : Nat) → Option Nat
  | 0, _ => none
  | k + 1, n => if (value >>> n) &&& 1#32 = 0#32 then ffsLoop value k (n + 1) else some n

/-- ixgbe.c:385-395 `find_first_set`. -/
def findFirstSet (value : BitVec 32) : Option Nat := if value = 0#32 then some 0 else ffsLoop value 32 0

/-- ixgbe.c:402-408 `reg_read`. -/
def regRead (r : Regs) (reg : Nat) : BitVec 32 := r reg

/-- ixgbe.c:410-415 `reg_read_field`. -/
def readField (r : Regs) (reg : Nat) (field : BitVec 32) : Option (BitVec 32) := do
  let shift ← findFirstSet field
  some ((regRead r reg >>> shift) &&& (field >>> shift))

/-- ixgbe.c:418-425 `reg_write`. -/
def regWrite (r : Regs) (reg : Nat) (value : BitVec 32) : Regs := fun x => if x = reg then value else r x

/-- ixgbe.c:427-433 `reg_write_field`. -/
def writeField (r : Regs) (reg : Nat) (field value : BitVec 32) : Option Regs := do
  let shift ← findFirstSet field
  some (regWrite r reg ((regRead r reg &&& ~~~field) ||| (value <<< shift)))

/-- ixgbe.c:438 `reg_clear_field`. -/
def clearField (r : Regs) (reg : Nat) (field : BitVec 32) : Option Regs := writeField r reg field 0#32

/-- ixgbe.c:441-446 `reg_set_field`. -/
def setField (r : Regs) (reg : Nat) (field : BitVec 32) : Regs := regWrite r reg (regRead r reg ||| field)

/-- ixgbe.c:449 `reg_is_field_cleared`. -/
def isFieldCleared (r : Regs) (reg : Nat) (field : BitVec 32) : Option Bool := do
  let v ← readField r reg field
  some (v == 0#32)

/-- ixgbe.c:375-381, the loop of `IF_AFTER_TIMEOUT` with `k` iterations left, at time `now`:
whether it has timed out, and the time. The condition is a function of the time at which it
is evaluated; evaluation takes no time, and sleeping takes exactly the given time. -/
def pollLoop (timeout : Nat) (cond : Nat → Bool) : (k now : Nat) → Bool × Nat
  | 0, now => (true, now)
  | k + 1, now => if !(cond now) then (false, now) else pollLoop timeout cond k (now + timeout / 10)

/-- ixgbe.c:369-382 `IF_AFTER_TIMEOUT`: whether the body is executed, and when. -/
def ifAfterTimeout (timeout : Nat) (cond : Nat → Bool) (now : Nat) : Bool × Nat :=
  pollLoop timeout cond 10 (now + timeout % 10)

end Verif.IxgbeRegs
