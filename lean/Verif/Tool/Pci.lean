/-
Model of /repo/tool/kalm/plugins/pci.py, of the port instructions in
/repo/tool/kalm/engine.py, and of the C side /repo/env/include/os/pci.h.
-/
import Mathlib.Data.List.Basic

set_option autoImplicit false

namespace Verif.Tool.Pci

/-- Bus, device, function and register, with the widths of pci.py:56-59. -/
structure Address where
  bus : BitVec 8
  device : BitVec 5
  function : BitVec 3
  register : BitVec 8
  deriving DecidableEq

/-- pci.py:6-11: the fields that change. -/
structure State where
  address : Option Address := none
  flushed : Bool := false
  deriving DecidableEq

/-- What reaches the device handlers. -/
inductive Event where
  | read (a : Address)
  | write (a : Address) (data : BitVec 32) (size : Nat)
  deriving DecidableEq

/-- A port instruction, or a merge of states. `data` holds the operand in its low `size` bytes,
like engine.py:27. -/
inductive Op where
  | inp (port : Nat) (size : Nat)
  | out (port : Nat) (data : BitVec 32) (size : Nat)
  | merge
  deriving DecidableEq

/-- pci.py:54-60 `_parse_address`. -/
def parseAddress (data : BitVec 32) : Address :=
  let data := data ^^^ 0x80000000#32
  ⟨data.extractLsb' 16 8, data.extractLsb' 11 5, data.extractLsb' 8 3, data.extractLsb' 0 8⟩

/-- pci.py:31-51 `handle_in`, `handle_out`, pci.py:17-22 `merge` (handlers are equal). none is an
exception; an address of another width than 32 bits is one because claripy refuses the xor. -/
def step (s : State) : Op → Option (State × Option Event)
  | .inp port _ =>
    if port = 0xCFC then
      match s.flushed, s.address with
      | true, some a => some (s, some (.read a))
      | _, _ => none
    else none
  | .out port data size =>
    if port = 0xCF8 then
      if size = 4 then some (⟨some (parseAddress data), false⟩, none) else none
    else if port = 0x80 then
      some (if s.address.isSome then { s with flushed := true } else s, none)
    else if port = 0xCFC then
      match s.flushed, s.address with
      | true, some a => some (s, some (.write a data size))
      | _, _ => none
    else none
  | .merge => some (⟨none, false⟩, none)

/-- A whole execution: the final state and the events, in order. -/
def run : State → List Op → Option (State × List Event)
  | s, [] => some (s, [])
  | s, op :: ops => do
    let (s', e) ← step s op
    let (s'', es) ← run s' ops
    some (s'', e.toList ++ es)

/-- os/pci.h:25, 34: the address written, all fields being uint8_t. -/
def encode (bus device function reg : BitVec 8) : BitVec 32 :=
  0x80000000#32 ||| (bus.zeroExtend 32 <<< 16) ||| (device.zeroExtend 32 <<< 11) ||| (function.zeroExtend 32 <<< 8) ||| reg.zeroExtend 32

/-- os/pci.h:23-29 `os_pci_read`. -/
def osPciRead (bus device function reg : BitVec 8) : List Op :=
  [.out 0xCF8 (encode bus device function reg) 4, .out 0x80 0 1, .inp 0xCFC 4]

/-- os/pci.h:32-38 `os_pci_write`. -/
def osPciWrite (bus device function reg : BitVec 8) (value : BitVec 32) : List Op :=
  [.out 0xCF8 (encode bus device function reg) 4, .out 0x80 0 1, .out 0xCFC value 4]

end Verif.Tool.Pci
