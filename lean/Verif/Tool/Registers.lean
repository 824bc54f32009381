/-
Model of device registers: /repo/tool/klint/fullstack/reg_util.py, /repo/tool/klint/fullstack/ast_util.py,
/repo/tool/klint/fullstack/device.py:60-79 (`device_writer` up to postconditions) and the shape of
/repo/tool/klint/fullstack/spec_reg.py and spec_act.py, whose tables are parameters here.

A register value is a constant or depends on an assignment of the symbols. Exceptions are `none`. Registers and fields are
named by strings, as in the code; the dictionaries of a table are lists in insertion order. Printing is left out.
-/
set_option autoImplicit false

namespace Verif.Tool.Registers

/-- An assignment of the symbols. -/
abbrev Env := Nat → Nat

/-- claripy bit vectors of a width: `BVV`, or any other. -/
inductive Val where
  | bvv (width value : Nat)
  | sym (width : Nat) (value : Env → Nat)

def Val.width : Val → Nat
  | .bvv w _ => w
  | .sym w _ => w

/-- The value under an assignment. -/
def Val.den (ρ : Env) : Val → Nat
  | .bvv w v => v % 2 ^ w
  | .sym w f => f ρ % 2 ^ w

/-- `x[hi:lo]`. -/
def Val.extract (x : Val) (hi lo : Nat) : Option Val :=
  if lo ≤ hi ∧ hi < x.width then
    match x with
    | .bvv w v => some (.bvv (hi - lo + 1) (v % 2 ^ w / 2 ^ lo))
    | .sym w f => some (.sym (hi - lo + 1) fun ρ => f ρ % 2 ^ w / 2 ^ lo)
  else none

/-- `a.concat(b)`. -/
def Val.concat : Val → Val → Val
  | .bvv w a, .bvv w' b => .bvv (w + w') (a % 2 ^ w * 2 ^ w' + b % 2 ^ w')
  | a, b => .sym (a.width + b.width) fun ρ => a.den ρ * 2 ^ b.width + b.den ρ

/-- spec_reg.py:3-10. -/
inductive Access where
  | na | rw | ro | iw | rw1c | rws | rw1cs
deriving DecidableEq

/-- A field after `validate_registers` (spec_reg.py:13-28); no initial value is 'X'. -/
structure Field where
  name : String
  start : Nat
  stop : Nat
  init : Option Nat
  access : Access

/-- A register: base, multiplier and limit of its address ranges, length in bits, access, fields. -/
structure Reg where
  addr : List (Nat × Nat × Nat)
  length : Nat
  access : Access
  fields : List Field

/-- reg_util.py:11-24 `__constrain_field`. -/
def constrainField (x : Val) (start stop value : Nat) : Option Val :=
  if stop < start then none
  else if value % 2 ^ (1 + stop - start) ≠ value then none
  else
    let v := Val.bvv (stop - start + 1) value
    if start = 0 then
      if stop = x.width - 1 then some v
      else (x.extract (x.width - 1) (stop + 1)).map fun h => h.concat v
    else if stop = x.width - 1 then (x.extract (start - 1) 0).map fun l => v.concat l
    else
      match x.extract (x.width - 1) (stop + 1), x.extract (start - 1) 0 with
      | some h, some l => some ((h.concat v).concat l)
      | _, _ => none

/-- reg_util.py:36-44: the loop over the fields; `last` is the first bit not yet dealt with. -/
def initFields : Val → Nat → List Field → Option (Val × Nat)
  | x, last, [] => some (x, last)
  | x, last, f :: fs =>
    match f.init with
    | none => initFields x (f.stop + 1) fs
    | some i =>
      match (if last ≠ f.start then constrainField x last (f.start - 1) 0 else some x) with
      | none => none
      | some x =>
        match constrainField x f.start f.stop i with
        | none => none
        | some x => initFields x (f.stop + 1) fs

/-- reg_util.py:26-47 `__init_reg_val_symb`; `s` is the new symbol. -/
def initSymb (s : Nat) (r : Reg) : Option Val :=
  match initFields (.sym r.length fun ρ => ρ s) 0 r.fields with
  | none => none
  | some (x, last) => if last ≠ r.length then constrainField x last (r.length - 1) 0 else some x

/-- reg_util.py:58-61: the loop over the fields. -/
def initValue : Nat → List Field → Option Nat
  | v, [] => some v
  | v, f :: fs =>
    match f.init with
    | none => none
    | some i => initValue (v ||| i <<< f.start) fs

/-- reg_util.py:49-63 `__init_reg_val_con`. -/
def initCon (r : Reg) : Option Val := (initValue 0 r.fields).map fun v => .bvv r.length v

/-- The values of the registers of a device, by name and index; the index of a register that has none is 0. -/
abbrev Store := String → Nat → Option Val

/-- reg_util.py:127-129 `is_reg_indexed`. It raises for a register without addresses, which no table has. -/
def Reg.indexed (r : Reg) : Bool :=
  match r.addr with
  | [] => false
  | (_, m, _) :: _ => m != 0

/-- Where the value of a register is kept. -/
def Reg.slot (r : Reg) (index : Nat) : Nat := if r.indexed then index else 0

/-- reg_util.py:154-164 `update_reg`. -/
def update (st : Store) (name : String) (index : Nat) (r : Reg) (v : Val) : Store :=
  fun n i => if n = name ∧ i = r.slot index then some v else st n i

/-- reg_util.py:131-152 `fetch_reg`. A symbol is made at most once per register and index: `fresh` gives it. -/
def fetch (fresh : String → Nat → Nat) (useInit : Bool) (st : Store) (name : String) (index : Nat) (r : Reg) : Option (Val × Store) :=
  match st name (r.slot index) with
  | some v => some (v, st)
  | none =>
    let s := fresh name (r.slot index)
    let v :=
      if useInit then
        match initCon r with
        | some v => some v
        | none => initSymb s r
      else some (.sym r.length fun ρ => ρ s)
    v.map fun v => (v, update st name index r v)

/-- reg_util.py:217-238: the new value of a register whose field gets the value `new`. -/
def withField (old : Val) (f : Field) (length new : Nat) : Option Val :=
  match old with
  | .bvv .. =>
    match (if f.start > 0 then (old.extract (f.start - 1) 0).map (·.den fun _ => 0) else some 0) with
    | none => none
    | some before =>
      match (if f.stop < length - 1 then (old.extract (length - 1) (f.stop + 1)).map (·.den fun _ => 0) else some 0) with
      | none => none
      | some after => some (.bvv length (0 ||| before ||| new <<< f.start ||| after <<< (f.stop + 1)))
  | .sym .. =>
    let v := Val.bvv (f.stop - f.start + 1) new
    match (if f.start = 0 then some v else (old.extract (f.start - 1) 0).map fun l => v.concat l) with
    | none => none
    | some x => if f.stop < length - 1 then (old.extract (length - 1) (f.stop + 1)).map fun h => h.concat x else some x

/-- A table of registers. -/
abbrev Table := List (String × Reg)

def Table.get (t : Table) (name : String) : Option Reg := (t.find? fun r => r.1 == name).map (·.2)

def Reg.field (r : Reg) (name : String) : Option Field := r.fields.find? fun f => f.name == name

/-- device.py:13-14: a device, as far as its registers go; `pci` are those of its PCI configuration. -/
structure Device where
  regs : Store
  pci : Store
  useInit : Bool
  latest : Option String
  counter : Nat
  actions : List (String × Nat)

/-- What does not change: the two tables, the symbols, and the path constraints. -/
structure Ctx where
  regs : Table
  pci : Table
  fresh : String → Nat → Nat
  freshPci : String → Nat → Nat
  constraints : Env → Prop

/-- reg_util.py:202-239 `change_reg_field`. The table is that of the device registers if it has the register, as for its only caller, ast_util.py:93-105. -/
def changeField (c : Ctx) (d : Device) (reg field : String) (index new : Nat) : Option Device :=
  match c.regs.get reg with
  | some r =>
    match fetch c.fresh d.useInit d.regs reg index r, r.field field with
    | some (old, st), some f => (withField old f r.length new).map fun v => { d with regs := update st reg index r v }
    | _, _ => none
  | none =>
    match c.pci.get reg with
    | none => none
    | some r =>
      match fetch c.freshPci d.useInit d.pci reg index r, r.field field with
      | some (old, st), some f => (withField old f r.length new).map fun v => { d with pci := update st reg index r v }
      | _, _ => none

/-- reg_util.py:166-180 `find_fields_on_write`; `trivially` is whether claripy simplifies the equation of two values to true. -/
def findFields (trivially : Val → Val → Bool) (prev new : Val) : List Field → Option (List (Field × Val × Val))
  | [] => some []
  | f :: fs =>
    match prev.extract f.stop f.start, new.extract f.stop f.start, findFields trivially prev new fs with
    | some p, some n, some l => some (if trivially p n then l else (f, p, n) :: l)
    | _, _, _ => none

/-- reg_util.py:191-200: the loop of `check_access_write`; for the first field on which writes are ignored the new value is replaced, and the rest is not looked at. -/
def checkFields : List (Field × Val × Val) → Option (List (Field × Val × Val))
  | [] => some []
  | (f, p, n) :: l =>
    if f.access = .iw then some ((f, p, p) :: l)
    else if f.access = .na ∨ f.access = .ro then none
    else (checkFields l).map fun l => (f, p, n) :: l

/-- reg_util.py:182-200 `check_access_write`. -/
def checkAccess (r : Reg) (fields : List (Field × Val × Val)) : Option (List (Field × Val × Val)) :=
  if fields.isEmpty && r.access == .ro then none else checkFields fields

/-- Preconditions of actions: ast_util.py:7-25, as far as `generateConstraints` accepts them. -/
inductive Cond where
  | reg (name field : String)
  | not (a : Cond)
  | or (l : List Cond)
  | and (l : List Cond)

/-- What an action does: write a value that passes a test into a field, or set or clear a field. -/
inductive Act where
  | write (name field : String) (valid : Nat → Bool)
  | set (name field : String)
  | clear (name field : String)

/-- ast_util.py:36-43 `getRegisters`, of an action. -/
def Act.register : Act → String
  | .write n _ _ => n
  | .set n _ => n
  | .clear n _ => n

/-- spec_act.py: an action; a postcondition is a list of fields to set (1) or clear (0), in order. -/
structure Action where
  name : String
  precond : Option Cond
  act : Act
  postcond : List (String × String × Nat)

open Classical in
/-- kalm/utils.py `definitely_true`. -/
noncomputable def definitely (c : Ctx) (p : Env → Prop) : Bool := decide (∀ ρ, c.constraints ρ → p ρ)

open Classical in
/-- ast_util.py:59-60: `eval_one` of the test of a written value, which raises if it has several values, or none. -/
noncomputable def evalOne (c : Ctx) (p : Env → Bool) : Option Bool :=
  if (∃ ρ, c.constraints ρ) ∧ ∀ ρ, c.constraints ρ → p ρ = true then some true
  else if (∃ ρ, c.constraints ρ) ∧ ∀ ρ, c.constraints ρ → p ρ = false then some false
  else none

/-- The bitwise operations of ast_util.py:129-138: on values of the same width. -/
def bitwise (op : Nat → Nat → Nat) (a b : Val) : Option Val :=
  if a.width = b.width then some (.sym a.width fun ρ => op (a.den ρ) (b.den ρ)) else none

/-- `~a`. -/
def complement (a : Val) : Val := .sym a.width fun ρ => 2 ^ a.width - 1 - a.den ρ

mutual
/-- ast_util.py:108-140 `generateConstraints`; reading a register for the first time stores its value. -/
def evalCond (c : Ctx) (index : Nat) (d : Device) : Cond → Option (Val × Device)
  | .reg name field =>
    match c.regs.get name with
    | some r =>
      match fetch c.fresh d.useInit d.regs name index r, r.field field with
      | some (v, st), some f => (v.extract f.stop f.start).map fun x => (x, { d with regs := st })
      | _, _ => none
    | none =>
      match c.pci.get name with
      | none => none
      | some r =>
        match fetch c.freshPci d.useInit d.pci name index r, r.field field with
        | some (v, st), some f => (v.extract f.stop f.start).map fun x => (x, { d with pci := st })
        | _, _ => none
  | .not a =>
    match evalCond c index d a with
    | none => none
    | some (x, d) => some (complement x, d)
  | .or l => evalConds c index (· ||| ·) (.bvv 1 0) d l
  | .and l => evalConds c index (· &&& ·) (.bvv 1 1) d l
def evalConds (c : Ctx) (index : Nat) (op : Nat → Nat → Nat) (acc : Val) (d : Device) : List Cond → Option (Val × Device)
  | [] => some (acc, d)
  | a :: l =>
    match evalCond c index d a with
    | none => none
    | some (x, d) =>
      match bitwise op acc x with
      | none => none
      | some acc => evalConds c index op acc d l
end

/-- reg_util.py:269-275 and ast_util.py:45-75: whether an action matches writing a field; several bits only match a write, one bit only setting or clearing it. -/
noncomputable def matchesField (c : Ctx) (reg : String) (f : Field) (new : Val) : Act → Option Bool
  | .write n g valid =>
    if f.stop ≠ f.start then
      if n = reg ∧ g = f.name then evalOne c fun ρ => valid (new.den ρ) else some false
    else some false
  | .set n g => some (f.stop == f.start && n == reg && g == f.name && definitely c fun ρ => new.den ρ = 2 ^ new.width - 1)
  | .clear n g => some (f.stop == f.start && n == reg && g == f.name && definitely c fun ρ => new.den ρ = 0)

/-- reg_util.py:280-284: whether the precondition holds. The condition is a bit vector; its complement is what must be unsatisfiable. -/
noncomputable def precondHolds (c : Ctx) (index : Nat) (d : Device) : Option Cond → Option (Bool × Device)
  | none => some (true, d)
  | some p =>
    match evalCond c index d p with
    | none => none
    | some (x, d) => some (definitely c fun ρ => x.den ρ = 2 ^ x.width - 1, d)

/-- reg_util.py:267-298: the actions for one field; whether one of them is valid. -/
noncomputable def verifyField (c : Ctx) (reg : String) (index : Nat) (f : Field) (new : Val) : Bool → Device → List Action → Option (Bool × Device)
  | valid, d, [] => some (valid, d)
  | valid, d, a :: as =>
    if a.act.register = reg then
      match matchesField c reg f new a.act with
      | none => none
      | some false => verifyField c reg index f new valid d as
      | some true =>
        match precondHolds c index d a.precond with
        | none => none
        | some (false, d) => verifyField c reg index f new valid d as
        | some (true, d) =>
          let d := if a.name = "Initiate Software Reset" then { d with useInit := true } else d
          verifyField c reg index f new true { d with latest := some a.name, actions := d.actions ++ [(a.name, d.counter)] } as
    else verifyField c reg index f new valid d as

/-- reg_util.py:255-304: all fields. -/
noncomputable def verifyFields (c : Ctx) (actions : List Action) (reg : String) (index : Nat) : Device → List (Field × Val × Val) → Option Device
  | d, [] => some d
  | d, (f, _, n) :: l =>
    match verifyField c reg index f n (f.access == .iw) d actions with
    | some (true, d) => verifyFields c actions reg index d l
    | _ => none

/-- reg_util.py:242-308 `verify_write`. -/
noncomputable def verifyWrite (c : Ctx) (actions : List Action) (reg : String) (index : Nat) (d : Device) (fields : List (Field × Val × Val)) : Option Device :=
  (verifyFields c actions reg index d fields).map fun d => { d with counter := d.counter + 1 }

/-- ast_util.py:77-105 `applyAST`: the fields of a postcondition. -/
def applyPost (c : Ctx) (index : Nat) : Device → List (String × String × Nat) → Option Device
  | d, [] => some d
  | d, (r, f, v) :: l =>
    match changeField c d r f index v with
    | none => none
    | some d => applyPost c index d l

/-- device.py:60-79 `device_writer`, given the register and index of the address. -/
noncomputable def write (c : Ctx) (trivially : Val → Val → Bool) (actions : List Action) (d : Device) (reg : String) (index : Nat) (value : Val) : Option Device :=
  match c.regs.get reg with
  | none => none
  | some r =>
    match fetch c.fresh d.useInit d.regs reg index r with
    | none => none
    | some (old, st) =>
      match findFields trivially old value r.fields with
      | none => none
      | some fields =>
        match checkAccess r fields with
        | none => none
        | some fields =>
          match verifyWrite c actions reg index { d with regs := st } fields with
          | none => none
          | some d =>
            let d := { d with regs := update d.regs reg index r value }
            match d.latest with
            | none => some d
            | some name =>
              match actions.find? fun a => a.name == name with
              | none => none
              | some a => (applyPost c index d a.postcond).map fun d => { d with latest := none }

/-- reg_util.py:76-80: the addresses of the ranges of one register, with their index; `idx` is the first index of the range. -/
def rangeEntries (name : String) : Nat → List (Nat × Nat × Nat) → List (Nat × String × Nat)
  | _, [] => []
  | idx, (b, m, l) :: rs => (List.range (l + 1 - idx)).map (fun n => (b + n * m, name, n + idx)) ++ rangeEntries name (idx + (l + 1)) rs

/-- reg_util.py:74-80: the cache, in the order in which it is filled. -/
def entries (t : Table) : List (Nat × String × Nat) := t.flatMap fun r => rangeEntries r.1 0 r.2.addr

/-- reg_util.py:79 and 88-90: later entries replace earlier ones. -/
def cached (t : Table) (a : Nat) : Option (String × Nat) := ((entries t).reverse.find? fun e => e.1 == a).map (·.2)

/-- reg_util.py:92-102: the ranges of one register; the test of line 98 always succeeds, as `//` gives an integer; the numbers are integers of any sign. -/
def searchRanges (name : String) (bytes : Nat) (a : Nat) : Nat → List (Nat × Nat × Nat) → Option (String × Nat)
  | _, [] => none
  | idx, (b, m, l) :: rs =>
    if b ≤ a ∧ (a : Int) < b + ((l : Int) - idx) * m + bytes then some (name, if m = 0 then 0 else (a - b) / m + idx)
    else searchRanges name bytes a (idx + (l + 1)) rs

/-- reg_util.py:91-102: the registers in turn. -/
def search (a : Nat) : Table → Option (String × Nat)
  | [] => none
  | r :: t =>
    match searchRanges r.1 (r.2.length / 8) a 0 r.2.addr with
    | some x => some x
    | none => search a t

/-- reg_util.py:73-125 `find_reg_from_addr`, for an address that is not symbolic; for symbolic ones it raises. -/
def findReg (t : Table) (a : Nat) : Option (String × Nat) :=
  match cached t a with
  | some x => some x
  | none => search a t

end Verif.Tool.Registers
