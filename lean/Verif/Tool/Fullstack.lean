/-
Model of the verification of whole programs: /repo/tool/klint/executor.py:137-171 (`execute_nf`),
/repo/tool/kalm/executor.py:65-79 (`run_state`), /repo/tool/kalm/engine.py:38-45 (traps),
/repo/tool/klint/externals/verif/verif.py:84-112 (`foreach_index_forever`), /repo/tool/klint/externals/os/pci.py:11-71 and
/repo/tool/klint/fullstack/device.py (how devices come to exist and receive packets).

The machine code is a tree of what matters here; everything else it does is a step without effect. Paths are run one after
another; the tool interleaves and merges them, but merged states have the same metadata (metadata.py:22-24). An exception in
one state ends the execution: angr lets Python's own exceptions through, and run_state raises angr's (kalm/executor.py:74-76).
-/
set_option autoImplicit false

namespace Verif.Fullstack

/-- Python's exceptions, by what raises them. -/
inductive Err
  | assertion | nameError | keyError | typeError | notOne | unknownDevice | refused | trapped | unimplemented
deriving DecidableEq, Repr

/-- device.py:14 `SpecDevice`, as far as needed: its index and the register instances that have a value. -/
structure Dev where
  index : Nat
  regs : List (String × Nat)
deriving DecidableEq, Repr

/-- A state: whether PCI devices were enumerated (metadata of class PciDevices and handlers, pci.py:54-71), and the metadata of class
SpecDevice. -/
structure State where
  enumerated : Bool
  devices : List Dev
deriving DecidableEq, Repr

/-- What the code does.
`pci`: an access to the configuration space of a PCI device through ports; none if the address is not shown to be that of one
device, which makes eval_one raise (pci.py:22). Accesses to the register itself may be refused.
`write`: a store to a register of the device whose address was obtained for device `dev`; `ok` is whether the checks of
reg_util.py accept it.
`branch`: both ways are possible. `forever`: a call of foreach_index_forever with that length, none if not constant, and the
code of the function for each index. -/
inductive Code
  | enumerate (next : Code)
  | pci (dev : Option Nat) (ok : Bool) (next : Code)
  | write (dev : Nat) (reg : String) (index : Nat) (ok : Bool) (next : Code)
  | other (next : Code)
  | branch (l r : Code)
  | halt
  | forever (length : Option Nat) (func : Nat → Code)
  | ret

/-- One item of `nf_inited_states`: a state, and the index and function that its creator captures (verif.py:107-110). -/
structure Inited where
  state : State
  index : Nat
  func : Nat → Code

/-- What is global: `trapped_states` in module kalm.engine (none: no such name) and in module kalm.executor, which are different
variables; klint.executor's `nf_inited_states`; and the states that ended. -/
structure World where
  engineTrapped : Option (List State)
  executorTrapped : List State
  inited : List Inited
  ended : List State

/-- Nothing assigns `trapped_states` in module kalm.engine: kalm/executor.py:68-69 assigns that of its own module. -/
def World.start : World := { engineTrapped := none, executorTrapped := [], inited := [], ended := [] }

/-- device.py:100-124 `spec_device_create_default`; line 113 is `assert False`. -/
def createDefault (_index : Nat) : Except Err Dev := .error .assertion

/-- pci.py:24 with metadata.py:43-50: the device of that index, made if there is none yet. -/
def getOrCreate (create : Nat → Except Err Dev) (s : State) (i : Nat) : Except Err State :=
  if s.devices.any (fun d => d.index == i) then .ok s
  else do
    let d ← create i
    .ok { s with devices := s.devices ++ [d] }

/-- pci.py:13-44 and kalm/plugins/pci.py:31-51: an access to the configuration space. Without enumeration there are no handlers,
and None is called. -/
def pciAccess (create : Nat → Except Err Dev) (s : State) (dev : Option Nat) (ok : Bool) : Except Err State :=
  if s.enumerated then
    match dev with
    | none => .error .notOne
    | some i => do
      let s' ← getOrCreate create s i
      if ok then .ok s' else .error .refused
  else .error .typeError

/-- device.py:60-71 `device_writer`: the device by its address (`find_device`, lines 16-20), then the checks, then the value. -/
def regWrite (s : State) (dev : Nat) (reg : String) (index : Nat) (ok : Bool) : Except Err State :=
  if s.devices.any (fun d => d.index == dev) then
    if ok then
      .ok { s with devices := s.devices.map fun d => if d.index = dev then { d with regs := (reg, index) :: d.regs } else d }
    else .error .refused
  else .error .unknownDevice

/-- engine.py:41-44: `hlt` appends to the module's global, which raises NameError if there is none. -/
def trap (s : State) (w : World) : Except Err World :=
  match w.engineTrapped with
  | none => .error .nameError
  | some l => .ok { w with engineTrapped := some (l ++ [s]) }

/-- verif.py:96-112: `range(None)` raises TypeError, as line 106 tests the wrong variable. A length of 0 makes the state
infeasible, and nothing is appended. -/
def foreachForever (s : State) (w : World) (length : Option Nat) (func : Nat → Code) : Except Err World :=
  match length with
  | none => .error .typeError
  | some n => .ok { w with inited := w.inited ++ (List.range n).map fun i => { state := s, index := i, func := func } }

/-- The execution of code from a state. While packets are handled foreach_index_forever is not among the externals
(executor.py:150), and calling it raises (library.py:3-6). -/
def runCode (create : Nat → Except Err Dev) (handling : Bool) : Code → State → World → Except Err World
  | .enumerate next, s, w => runCode create handling next { s with enumerated := true } w
  | .pci dev ok next, s, w => do runCode create handling next (← pciAccess create s dev ok) w
  | .write dev reg i ok next, s, w => do runCode create handling next (← regWrite s dev reg i ok) w
  | .other next, s, w => runCode create handling next s w
  | .branch l r, s, w => do runCode create handling r s (← runCode create handling l s w)
  | .halt, s, w => trap s w
  | .forever n f, s, w => if handling then .error .unimplemented else foreachForever s w n f
  | .ret, s, w => .ok { w with ended := w.ended ++ [s] }

/-- kalm/executor.py:65-79 `run_state`: the world after it, and the states that ended. -/
def runState (create : Nat → Except Err Dev) (handling allowTrap : Bool) (code : Code) (s : State) (w : World) :
    Except Err (World × List State) := do
  let w ← runCode create handling code s { w with executorTrapped := [], ended := [] }
  if w.executorTrapped.length > 0 && !allowTrap then .error .trapped
  else .ok (w, w.ended)

/-- device.py:33-46 `receive_packet_on_device`: the device by its index (lines 22-25), whose ring must have been set (lines 27-31).
The contents of memory are not modelled. -/
def receive (s : State) (i : Nat) : Except Err Unit :=
  match s.devices.filter (fun d => d.index == i) with
  | [d] =>
    if ("RDBAL", 0) ∈ d.regs ∧ ("RDBAH", 0) ∈ d.regs then .ok () else .error .keyError
  | _ => .error .assertion

/-- executor.py:67-74: each state receives its packet and is executed. -/
def iterate (create : Nat → Except Err Dev) : List Inited → World → Except Err (World × List State)
  | [], w => .ok (w, [])
  | x :: xs, w => do
    receive x.state x.index
    let (w, ended) ← runState create true false (x.func x.index) x.state w
    let (w, rest) ← iterate create xs w
    .ok (w, ended ++ rest)

/-- executor.py:63-83: until inference finds a fixed point; none if `fuel` iterations are not enough. `infer` is what
inference makes of the states before and after a packet: new states, or none at a fixed point. -/
def findFixedpoint (create : Nat → Except Err Dev) (infer : List State → List State → Option (List State)) :
    Nat → List Inited → World → Option (Except Err (List State))
  | 0, _, _ => none
  | fuel + 1, data, w =>
    match iterate create data w with
    | .error e => some (.error e)
    | .ok (w, results) =>
      match infer (data.map (·.state)) results with
      | none => some (.ok results)
      | some states => findFixedpoint create infer fuel (List.zipWith (fun s x => { x with state := s }) states data) w

/-- executor.py:155-171 `execute_nf`, from line 160. The tables of registers and actions are checked before. -/
def executeNf (create : Nat → Except Err Dev) (infer : List State → List State → Option (List State)) (fuel : Nat)
    (start : Code) : Option (Except Err (List State)) :=
  match runState create false true start { enumerated := false, devices := [] } World.start with
  | .error e => some (.error e)
  | .ok (w, _) =>
    if w.inited.length > 0 then findFixedpoint create infer fuel w.inited w
    else some (.error .assertion)

end Verif.Fullstack
