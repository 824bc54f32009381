/-
Model of /repo/env/src/os/metal/boot.asm, the code that a boot loader starts when there is no operating system, of the sections that
/repo/env/src/os/metal/linker.ld places, and of the two headers multiboot1_header.asm and multiboot2_header.asm.

The code is a list of instructions, run by an interpreter of the few kinds of instructions that occur, after the Intel manual that boot.asm cites.

Simplifications (whole file):
* All conditional jumps go to `.unsupported_cpu` (lines 410-414), an endless loop of `hlt`: a jump taken is the outcome `halted`. The
  far jump goes to `.64_bit`, which comes next. Non-maskable interrupts do not occur.
* An exception is the outcome `fault`: whether it resets the machine depends on the table of handlers (line 39).
* Of the flags that arithmetic sets, the zero and the carry flag are modelled: no instruction reads others.
* A descriptor of a segment is read from the table when CS is loaded; the base and the limit of segments are 0 and all of memory (assumed in lines
  50-51 until CS is loaded, and ignored by 64-bit mode). The privilege level is 0 throughout.
* Linear addresses are natural numbers. Pages are looked up for each byte; nothing is cached, and the bits "accessed" and "dirty" are not set.
-/
import Mathlib.Data.List.Basic

set_option autoImplicit false

namespace Verif.Boot

/-- Lines 9-32: what the processor must support, and XSAVE (line 236) and CMPXCHG8B (line 262). CPUID itself is in `Cpu`. -/
inductive Feature
  | longMode | mmx | sse | sse2 | sse3 | ssse3 | sse41 | sse42 | popcnt | avx | aes | pclmul | fsgsbase | rdrand | f16c | cmpxchg16b
  | fpu | fxsr | pae | page1gb | tsc | invariantTsc | msr | xsave | cx8
deriving DecidableEq

/-- The registers that CPUID reports in. -/
structure Info where
  eax : BitVec 32
  ebx : BitVec 32
  ecx : BitVec 32
  edx : BitVec 32

/-- Where the manual says that a feature is reported: leaf, register and bit; the subleaf is 0 (lines 181-290). -/
def reported : Feature → BitVec 32 × (Info → BitVec 32) × Nat
  | .longMode => (0x80000001#32, Info.edx, 29)
  | .page1gb => (0x80000001#32, Info.edx, 26)
  | .sse3 => (1#32, Info.ecx, 0)
  | .pclmul => (1#32, Info.ecx, 1)
  | .ssse3 => (1#32, Info.ecx, 9)
  | .cmpxchg16b => (1#32, Info.ecx, 13)
  | .sse41 => (1#32, Info.ecx, 19)
  | .sse42 => (1#32, Info.ecx, 20)
  | .popcnt => (1#32, Info.ecx, 23)
  | .aes => (1#32, Info.ecx, 25)
  | .xsave => (1#32, Info.ecx, 26)
  | .avx => (1#32, Info.ecx, 28)
  | .f16c => (1#32, Info.ecx, 29)
  | .rdrand => (1#32, Info.ecx, 30)
  | .fpu => (1#32, Info.edx, 0)
  | .tsc => (1#32, Info.edx, 4)
  | .msr => (1#32, Info.edx, 5)
  | .pae => (1#32, Info.edx, 6)
  | .cx8 => (1#32, Info.edx, 8)
  | .mmx => (1#32, Info.edx, 23)
  | .fxsr => (1#32, Info.edx, 24)
  | .sse => (1#32, Info.edx, 25)
  | .sse2 => (1#32, Info.edx, 26)
  | .fsgsbase => (7#32, Info.ebx, 0)
  | .invariantTsc => (0x80000007#32, Info.edx, 8)

/-- A processor: whether it has CPUID (lines 68-71), the highest leaves, what the leaves up to them hold, and what it supports. -/
structure Cpu where
  hasCpuid : Bool
  maxBasic : BitVec 32
  maxExtended : BitVec 32
  info : BitVec 32 → BitVec 32 → Info
  has : Feature → Bool

/-- Whether a leaf exists. -/
def Cpu.leaf (c : Cpu) (leaf : BitVec 32) : Bool := leaf ≤ c.maxBasic || (0x80000000#32 ≤ leaf && leaf ≤ c.maxExtended)

/-- The instruction CPUID; for a leaf that does not exist, the manual says, it returns what the highest basic leaf holds. -/
def Cpu.cpuid (c : Cpu) (leaf subleaf : BitVec 32) : Info := if c.leaf leaf then c.info leaf subleaf else c.info c.maxBasic subleaf

/-- Where things are in memory: the labels of boot.asm, and the address of each instruction. -/
structure Layout where
  stackTop : Nat
  stackBottom : Nat
  pml4 : Nat
  pdpt : Nat
  gdt : Nat
  text : Nat → Nat

inductive Reg
  | eax | ebx | ecx | edx | esp
deriving DecidableEq

inductive Cr
  | cr0 | cr3 | cr4
deriving DecidableEq

inductive Seg
  | ss | ds | es | fs | gs
deriving DecidableEq

/-- Widths of operands. -/
inductive W
  | w16 | w32 | w64
deriving DecidableEq

/-- Second operands: a register, a constant, or the address of a label. -/
inductive Src
  | reg (r : Reg)
  | imm (v : BitVec 64)
  | label (l : Layout → Nat)

inductive Cond
  | z | be | b | nc | nz
deriving DecidableEq

/-- The instructions that occur. `storePml4` is `mov [pml4], r`. -/
inductive Instr
  | mov (w : W) (d : Reg) (s : Src)
  | and (w : W) (d : Reg) (s : Src)
  | or (w : W) (d : Reg) (s : Src)
  | xor (w : W) (d : Reg) (s : Src)
  | cmp (d : Reg) (s : Src)
  | bt (d : Reg) (bit : Nat)
  | jcc (c : Cond)
  | push (r : Reg)
  | pop (r : Reg)
  | pushfd
  | popfd
  | cpuid
  | fromCr (w : W) (d : Reg) (cr : Cr)
  | toCr (cr : Cr) (s : Reg)
  | storePml4 (s : Reg)
  | rdmsr
  | wrmsr
  | lgdt
  | farJump (selector : Nat)
  | movSeg (seg : Seg) (s : Reg)
  | xgetbv
  | xsetbv
  | callStart

/-- The state of the machine. `cs` is the descriptor in use, `segs` the other selectors, `idt` the address and limit of the table of handlers. -/
structure St where
  eax : BitVec 64
  ebx : BitVec 64
  ecx : BitVec 64
  edx : BitVec 64
  esp : BitVec 64
  eflags : BitVec 32
  cr0 : BitVec 64
  cr3 : BitVec 64
  cr4 : BitVec 64
  efer : BitVec 64
  xcr0 : BitVec 64
  gdtBase : Nat
  gdtLimit : Nat
  idt : Nat × Nat
  cs : Nat
  segs : Seg → BitVec 16
  mem : Nat → BitVec 8

/-- `n` bytes of memory as a number, lowest first. -/
def rd (m : Nat → BitVec 8) (a : Nat) : Nat → Nat
  | 0 => 0
  | n + 1 => (m a).toNat + 256 * rd m (a + 1) n

/-- Memory with `n` bytes replaced by those of a number, lowest first. -/
def wr (m : Nat → BitVec 8) (a n v : Nat) : Nat → BitVec 8 :=
  fun x => if a ≤ x ∧ x < a + n then BitVec.ofNat 8 (v / 256 ^ (x - a)) else m x

/-- What a lookup of a page gives: the physical address, and whether it may be written and executed. -/
structure Page where
  addr : Nat
  write : Bool
  exec : Bool
deriving DecidableEq

/-- The lookup of a linear address in the tables, from a table of the given level down: level 4 is the PML4, 3 the PDPT. Bit 0 of an
entry is "present", bit 1 "writable", bit 7 "page size" and bit 63 "execute disable"; bits 12 to 51 are the address. `none` is a page fault. Pages of 1
GiB and 2 MiB must have zeroes in bits 13 to 29 and 13 to 20. -/
def walk (m : Nat → BitVec 8) (nxe : Bool) : Nat → Nat → Nat → Bool → Bool → Option Page
  | 0, _, _, _, _ => none
  | level + 1, table, v, w, x =>
    let entry := rd m (table + 8 * (v / 2 ^ (12 + 9 * level) % 512)) 8
    let w := w && entry.testBit 1
    let x := x && !(nxe && entry.testBit 63)
    if !entry.testBit 0 || (!nxe && entry.testBit 63) then none
    else if level = 0 then some ⟨entry % 2 ^ 52 / 2 ^ 12 * 2 ^ 12 + v % 2 ^ 12, w, x⟩
    else if entry.testBit 7 then
      if level ≤ 2 ∧ entry / 2 ^ 13 % 2 ^ (9 * level - 1) = 0 then
        some ⟨entry % 2 ^ 52 / 2 ^ (12 + 9 * level) * 2 ^ (12 + 9 * level) + v % 2 ^ (12 + 9 * level), w, x⟩
      else none
    else walk m nxe level (entry % 2 ^ 52 / 2 ^ 12 * 2 ^ 12) v w x

/-- The translation of a linear address: none without paging; otherwise the address must be canonical and there are 4 levels, or 5 if
CR4.LA57 (bit 12) is set. Paging is set up with long mode only (`toCr`), so that other formats do not occur. -/
def translate (s : St) (v : Nat) : Option Page :=
  if s.cr0.getLsbD 31 then
    let levels := if s.cr4.getLsbD 12 then 5 else 4
    let bits := if s.cr4.getLsbD 12 then 56 else 47
    if v < 2 ^ bits ∨ (2 ^ 64 - 2 ^ bits ≤ v ∧ v < 2 ^ 64) then
      walk s.mem (s.efer.getLsbD 11) levels (s.cr3.toNat % 2 ^ 52 / 2 ^ 12 * 2 ^ 12) v true true
    else none
  else some ⟨v, true, true⟩

/-- A load of `n` bytes. -/
def load (s : St) (a : Nat) : Nat → Option Nat
  | 0 => some 0
  | n + 1 => do
    let p ← translate s a
    let rest ← load s (a + 1) n
    some ((s.mem p.addr).toNat + 256 * rest)

def St.get (s : St) : Reg → BitVec 64
  | .eax => s.eax
  | .ebx => s.ebx
  | .ecx => s.ecx
  | .edx => s.edx
  | .esp => s.esp

def St.set (s : St) (r : Reg) (v : BitVec 64) : St :=
  match r with
  | .eax => { s with eax := v }
  | .ebx => { s with ebx := v }
  | .ecx => { s with ecx := v }
  | .edx => { s with edx := v }
  | .esp => { s with esp := v }

/-- A write to a register: 32-bit operands clear the upper half, 16-bit operands keep the rest. -/
def St.put (s : St) (w : W) (r : Reg) (v : BitVec 64) : St :=
  match w with
  | .w16 => s.set r ((s.get r &&& 0xFFFFFFFFFFFF0000#64) ||| (v &&& 0xFFFF#64))
  | .w32 => s.set r (v &&& 0xFFFFFFFF#64)
  | .w64 => s.set r v

def Src.val (L : Layout) (s : St) : Src → BitVec 64
  | .reg r => s.get r
  | .imm v => v
  | .label l => BitVec.ofNat 64 (l L)

/-- The carry flag is bit 0 and the zero flag bit 6. -/
def setFlags (e : BitVec 32) (z c : Bool) : BitVec 32 :=
  (e &&& 0xFFFFFFBE#32) ||| (if z then 0x40#32 else 0#32) ||| (if c then 1#32 else 0#32)

def St.flags (s : St) (z c : Bool) : St := { s with eflags := setFlags s.eflags z c }

def maskOf : W → BitVec 64
  | .w16 => 0xFFFF#64
  | .w32 => 0xFFFFFFFF#64
  | .w64 => 0xFFFFFFFFFFFFFFFF#64

/-- A logical operation: writes the register and sets the flags. -/
def St.logic (s : St) (w : W) (r : Reg) (v : BitVec 64) : St := (s.put w r v).flags (v &&& maskOf w == 0#64) false

def Cond.holds (c : Cond) (s : St) : Bool :=
  match c with
  | .z => s.eflags.getLsbD 6
  | .be => s.eflags.getLsbD 0 || s.eflags.getLsbD 6
  | .b => s.eflags.getLsbD 0
  | .nc => !s.eflags.getLsbD 0
  | .nz => !s.eflags.getLsbD 6

/-- Results of one instruction. -/
inductive Res
  | next (s : St)
  | halted
  | fault
  | started (s : St)

/-- 64-bit mode: long mode is active (EFER.LMA, bit 10) and the code segment is a 64-bit one (bit 53 of its descriptor). -/
def St.is64 (s : St) : Bool := s.efer.getLsbD 10 && s.cs.testBit 53

/-- One instruction.
Exceptions: CPUID, RDMSR, WRMSR and XGETBV, XSETBV need the processor to have them (the latter with CR4.OSXSAVE); MSRs other than
IA32_EFER are not used; setting a bit of CR4 needs the feature it is for (bits that are set already are allowed to stay); enabling paging
needs protection, and CR4.PAE if EFER.LME is set, and enables long mode; without EFER.LME it would select another format of tables,
which is left out (`fault`). EFER.LME cannot change while paging is on. XCR0 must keep bit 0, and have AVX for bit 2, which needs bit 1. A far jump needs a code
segment (bits 43, 44) that is present (47), with privilege level 0 (45, 46), not both 64-bit and 32-bit (53, 54). The null selector is allowed for SS in
64-bit mode only. -/
def step (c : Cpu) (L : Layout) (s : St) : Instr → Res
  | .mov w d src => .next (s.put w d (src.val L s))
  | .and w d src => .next (s.logic w d (s.get d &&& src.val L s))
  | .or w d src => .next (s.logic w d (s.get d ||| src.val L s))
  | .xor w d src => .next (s.logic w d (s.get d ^^^ src.val L s))
  | .cmp d src =>
    let a := s.get d &&& 0xFFFFFFFF#64
    let b := src.val L s &&& 0xFFFFFFFF#64
    .next (s.flags (a == b) (a < b))
  | .bt d bit => .next (s.flags (s.eflags.getLsbD 6) ((s.get d).getLsbD bit))
  | .jcc cond => if cond.holds s then .halted else .next s
  | .push r =>
    let a := (s.esp.toNat + 2 ^ 32 - 4) % 2 ^ 32
    match translate s a with
    | none => .fault
    | some p => .next { s with esp := BitVec.ofNat 64 a, mem := wr s.mem p.addr 4 ((s.get r).toNat % 2 ^ 32) }
  | .pop r =>
    match load s s.esp.toNat 4 with
    | none => .fault
    | some v => .next ({ s with esp := BitVec.ofNat 64 ((s.esp.toNat + 4) % 2 ^ 32) }.put .w32 r (BitVec.ofNat 64 v))
  | .pushfd =>
    let a := (s.esp.toNat + 2 ^ 32 - 4) % 2 ^ 32
    match translate s a with
    | none => .fault
    | some p => .next { s with esp := BitVec.ofNat 64 a, mem := wr s.mem p.addr 4 s.eflags.toNat }
  | .popfd =>
    match load s s.esp.toNat 4 with
    | none => .fault
    | some v =>
      let new := BitVec.ofNat 32 v
      .next { s with
        esp := BitVec.ofNat 64 ((s.esp.toNat + 4) % 2 ^ 32),
        eflags := if c.hasCpuid then new else (new &&& ~~~0x200000#32) ||| (s.eflags &&& 0x200000#32) }
  | .cpuid =>
    if c.hasCpuid then
      let i := c.cpuid (s.eax.setWidth 32) (s.ecx.setWidth 32)
      .next { s with eax := i.eax.setWidth 64, ebx := i.ebx.setWidth 64, ecx := i.ecx.setWidth 64, edx := i.edx.setWidth 64 }
    else .fault
  | .fromCr w d cr => .next (s.put w d (match cr with | .cr0 => s.cr0 | .cr3 => s.cr3 | .cr4 => s.cr4))
  | .toCr .cr3 src => .next { s with cr3 := s.get src }
  | .toCr .cr4 src =>
    let v := s.get src
    let sets := fun bit => v.getLsbD bit && !s.cr4.getLsbD bit
    if (sets 5 && !c.has .pae) || (sets 9 && !c.has .fxsr) || (sets 10 && !c.has .sse) || (sets 18 && !c.has .xsave) then .fault
    else .next { s with cr4 := v }
  | .toCr .cr0 src =>
    let v := s.get src
    if v.getLsbD 31 then
      if !v.getLsbD 0 then .fault
      else if !s.cr0.getLsbD 31 then
        if s.efer.getLsbD 8 && s.cr4.getLsbD 5 && !s.cs.testBit 53 then .next { s with cr0 := v, efer := s.efer ||| 0x400#64 } else .fault
      else .next { s with cr0 := v }
    else .next { s with cr0 := v }
  | .storePml4 src =>
    match translate s L.pml4 with
    | none => .fault
    | some p => .next { s with mem := wr s.mem p.addr 4 ((s.get src).toNat % 2 ^ 32) }
  | .rdmsr =>
    if c.has .msr && c.has .longMode && s.ecx.setWidth 32 == 0xC0000080#32 then
      .next { s with eax := s.efer &&& 0xFFFFFFFF#64, edx := s.efer >>> 32 }
    else .fault
  | .wrmsr =>
    if c.has .msr && c.has .longMode && s.ecx.setWidth 32 == 0xC0000080#32 then
      let v := (s.edx <<< 32) ||| (s.eax &&& 0xFFFFFFFF#64)
      if s.cr0.getLsbD 31 && (v.getLsbD 8 != s.efer.getLsbD 8) then .fault else .next { s with efer := v }
    else .fault
  | .lgdt =>
    match load s (L.gdt + 16) 2, load s (L.gdt + 18) 4 with
    | some limit, some base => .next { s with gdtBase := base, gdtLimit := limit }
    | _, _ => .fault
  | .farJump selector =>
    if selector + 7 ≤ s.gdtLimit ∧ selector % 8 = 0 ∧ selector ≠ 0 then
      match load s (s.gdtBase + selector) 8 with
      | none => .fault
      | some d =>
        if d.testBit 43 && d.testBit 44 && d.testBit 47 && !d.testBit 45 && !d.testBit 46 && !(d.testBit 53 && d.testBit 54) then .next { s with cs := d }
        else .fault
    else .fault
  | .movSeg seg src =>
    let v := (s.get src).setWidth 16
    if v != 0#16 || (seg == .ss && !s.is64) then .fault else .next { s with segs := fun x => if x = seg then v else s.segs x }
  | .xgetbv =>
    if s.cr4.getLsbD 18 && s.ecx.setWidth 32 == 0#32 then .next { s with eax := s.xcr0 &&& 0xFFFFFFFF#64, edx := s.xcr0 >>> 32 } else .fault
  | .xsetbv =>
    if s.cr4.getLsbD 18 && s.ecx.setWidth 32 == 0#32 then
      let v := (s.edx <<< 32) ||| (s.eax &&& 0xFFFFFFFF#64)
      if !v.getLsbD 0 || (v.getLsbD 2 && (!v.getLsbD 1 || !c.has .avx)) then .fault else .next { s with xcr0 := v }
    else .fault
  | .callStart => .started s

/-- The rest runs after an instruction that did not end the program. -/
def Res.andThen (r : Res) (f : St → Res) : Res :=
  match r with
  | .next s => f s
  | .halted => .halted
  | .fault => .fault
  | .started s => .started s

/-- Instructions from the `k`-th on. Each must be in memory that may be executed, at the physical address where it was loaded. -/
def exec (c : Cpu) (L : Layout) : Nat → List Instr → St → Res
  | _, [], s => .next s
  | k, i :: is, s =>
    match translate s (L.text k) with
    | none => .fault
    | some p =>
      if p.addr = L.text k ∧ p.exec = true then
        (step c L s i).andThen (exec c L (k + 1) is)
      else .fault

/-- boot.asm:89-153: is there a CPUID instruction? -/
def checkCpuid : List Instr := [
  /- 89 -/ .mov .w32 .esp (.label Layout.stackBottom),
  /- 100 -/ .pushfd,
  /- 112 -/ .pop .eax,
  /- 118 -/ .mov .w32 .ebx (.reg .eax),
  /- 131 -/ .xor .w32 .eax (.imm 0x200000#64),
  /- 137 -/ .push .eax,
  /- 138 -/ .popfd,
  /- 142 -/ .pushfd,
  /- 143 -/ .pop .eax,
  /- 152 -/ .cmp .eax (.reg .ebx),
  /- 153 -/ .jcc .z]

/-- boot.asm:172-220: the number of leaves, and the features of an extended leaf. -/
def checkExtended : List Instr := [
  /- 172 -/ .xor .w32 .eax (.reg .eax),
  /- 173 -/ .cpuid,
  /- 178 -/ .cmp .eax (.imm 2#64),
  /- 179 -/ .jcc .be,
  /- 190 -/ .mov .w32 .eax (.imm 0x80000000#64),
  /- 191 -/ .cpuid,
  /- 198 -/ .cmp .eax (.imm 0x80000007#64),
  /- 199 -/ .jcc .b,
  /- 205 -/ .mov .w32 .eax (.imm 0x80000001#64),
  /- 206 -/ .cpuid,
  /- 213 -/ .bt .edx 29,
  /- 214 -/ .jcc .nc,
  /- 219 -/ .bt .edx 26,
  /- 220 -/ .jcc .nc]

/-- boot.asm:253: the features in ECX of leaf 1. -/
def ecxMask : BitVec 64 :=
  (1#64 <<< 0) ||| (1#64 <<< 1) ||| (1#64 <<< 9) ||| (1#64 <<< 13) ||| (1#64 <<< 19) ||| (1#64 <<< 20) ||| (1#64 <<< 23) ||| (1#64 <<< 25) |||
    (1#64 <<< 26) ||| (1#64 <<< 28) ||| (1#64 <<< 29) ||| (1#64 <<< 30)

/-- boot.asm:268: the features in EDX of leaf 1. -/
def edxMask : BitVec 64 :=
  (1#64 <<< 0) ||| (1#64 <<< 4) ||| (1#64 <<< 5) ||| (1#64 <<< 6) ||| (1#64 <<< 8) ||| (1#64 <<< 23) ||| (1#64 <<< 24) ||| (1#64 <<< 25) ||| (1#64 <<< 26)

/-- boot.asm:225-286: the features of leaves 1, 7 and 0x80000007. -/
def checkFeatures : List Instr := [
  /- 225 -/ .mov .w32 .eax (.imm 1#64),
  /- 226 -/ .cpuid,
  /- 253 -/ .mov .w32 .eax (.imm ecxMask),
  /- 254 -/ .and .w32 .ecx (.reg .eax),
  /- 255 -/ .cmp .ecx (.reg .eax),
  /- 256 -/ .jcc .nz,
  /- 268 -/ .mov .w32 .eax (.imm edxMask),
  /- 269 -/ .and .w32 .edx (.reg .eax),
  /- 270 -/ .cmp .edx (.reg .eax),
  /- 271 -/ .jcc .nz,
  /- 275 -/ .mov .w32 .eax (.imm 7#64),
  /- 276 -/ .xor .w32 .ecx (.reg .ecx),
  /- 277 -/ .cpuid,
  /- 278 -/ .bt .ebx 0,
  /- 279 -/ .jcc .nc,
  /- 283 -/ .mov .w32 .eax (.imm 0x80000007#64),
  /- 284 -/ .cpuid,
  /- 285 -/ .bt .edx 8,
  /- 286 -/ .jcc .nc]

/-- boot.asm:304-386: page tables, long mode, paging. -/
def enablePaging : List Instr := [
  /- 304 -/ .fromCr .w32 .eax .cr4,
  /- 305 -/ .or .w32 .eax (.imm (1#64 <<< 5)),
  /- 306 -/ .toCr .cr4 .eax,
  /- 350 -/ .mov .w32 .eax (.label Layout.pdpt),
  /- 351 -/ .or .w32 .eax (.imm 3#64),
  /- 353 -/ .storePml4 .eax,
  /- 359 -/ .mov .w32 .eax (.label Layout.pml4),
  /- 360 -/ .toCr .cr3 .eax,
  /- 372 -/ .mov .w32 .ecx (.imm 0xC0000080#64),
  /- 373 -/ .rdmsr,
  /- 377 -/ .or .w32 .eax (.imm (1#64 <<< 8)),
  /- 378 -/ .wrmsr,
  /- 384 -/ .fromCr .w32 .eax .cr0,
  /- 385 -/ .or .w32 .eax (.imm (1#64 <<< 31)),
  /- 386 -/ .toCr .cr0 .eax]

/-- boot.asm:399-466: segments, and the registers that enable SSE and AVX. -/
def enter64 : List Instr := [
  /- 399 -/ .lgdt,
  /- 407 -/ .farJump 8,
  /- 426 -/ .xor .w16 .eax (.reg .eax),
  /- 427 -/ .movSeg .ss .eax,
  /- 428 -/ .movSeg .ds .eax,
  /- 429 -/ .movSeg .es .eax,
  /- 430 -/ .movSeg .fs .eax,
  /- 431 -/ .movSeg .gs .eax,
  /- 439 -/ .fromCr .w64 .eax .cr4,
  /- 440 -/ .or .w64 .eax (.imm ((1#64 <<< 9) ||| (1#64 <<< 10))),
  /- 441 -/ .toCr .cr4 .eax,
  /- 444 -/ .fromCr .w64 .eax .cr0,
  /- 445 -/ .and .w64 .eax (.imm (~~~(1#64 <<< 2))),
  /- 446 -/ .or .w64 .eax (.imm (1#64 <<< 1)),
  /- 447 -/ .toCr .cr0 .eax,
  /- 450 -/ .fromCr .w64 .eax .cr4,
  /- 451 -/ .or .w64 .eax (.imm (1#64 <<< 18)),
  /- 452 -/ .toCr .cr4 .eax,
  /- 455 -/ .xor .w64 .ecx (.reg .ecx),
  /- 456 -/ .xgetbv,
  /- 457 -/ .or .w32 .eax (.imm 7#64),
  /- 458 -/ .xsetbv,
  /- 463 -/ .mov .w32 .esp (.label Layout.stackBottom),
  /- 466 -/ .callStart]

/-- boot.asm:63-466: the code from `start` on. -/
def code : List Instr := checkCpuid ++ checkExtended ++ checkFeatures ++ enablePaging ++ enter64

/-- boot.asm:520-524: the entries of the PDPT that are not zero. -/
def pdptEntries : List Nat := [0x0 ||| 0b10000011, 0x40000000 ||| 0b10000011, 0x80000000 ||| 0b10000011, 0xc0000000 ||| 0b10000011]

/-- boot.asm:548: the descriptor of the code segment. -/
def codeDescriptor : Nat := (1 <<< 47) ||| (1 <<< 44) ||| (1 <<< 43) ||| (1 <<< 53)

/-- boot.asm:473-553, linker.ld: what memory holds when the program starts, and where. The two tables are aligned (lines 508, 515); `.bss`
is, and the end of the stack in it (lines 478-493); everything is below 4 GiB (lines 43-46) and nothing overlaps. -/
structure Loaded (L : Layout) (m : Nat → BitVec 8) : Prop where
  stack : L.stackBottom = L.stackTop + 2 ^ 20
  stackAligned : L.stackBottom % 16 = 0
  pml4Aligned : L.pml4 % 4096 = 0
  pdptAligned : L.pdpt % 4096 = 0
  stackLow : L.stackBottom < 2 ^ 32
  pml4Low : L.pml4 + 4096 ≤ 2 ^ 32
  pdptLow : L.pdpt + 4096 ≤ 2 ^ 32
  gdtLow : L.gdt + 26 ≤ 2 ^ 32
  textLow : ∀ k, L.text k < 2 ^ 32
  apart1 : L.pml4 + 4096 ≤ L.pdpt ∨ L.pdpt + 4096 ≤ L.pml4
  apart2 : L.stackBottom ≤ L.pml4 ∨ L.pml4 + 4096 ≤ L.stackTop
  apart3 : L.stackBottom ≤ L.pdpt ∨ L.pdpt + 4096 ≤ L.stackTop
  apart4 : L.stackBottom ≤ L.gdt ∨ L.gdt + 26 ≤ L.stackTop
  apart5 : L.pml4 + 4096 ≤ L.gdt ∨ L.gdt + 26 ≤ L.pml4
  pml4 : ∀ i < 512, rd m (L.pml4 + 8 * i) 8 = 0
  pdpt : ∀ i < 512, rd m (L.pdpt + 8 * i) 8 = pdptEntries.getD i 0
  null : rd m L.gdt 8 = 0
  descriptor : rd m (L.gdt + 8) 8 = codeDescriptor
  limit : rd m (L.gdt + 16) 2 = 15
  base : rd m (L.gdt + 18) 8 = L.gdt

/-- boot.asm:48-56: the machine as the boot loader leaves it. The code segment is a 32-bit one. -/
structure Initial (s : St) : Prop where
  protection : s.cr0.getLsbD 0 = true
  paging : s.cr0.getLsbD 31 = false
  cs : s.cs.testBit 53 = false

/-- What CPUID says is true. -/
structure Faithful (c : Cpu) : Prop where
  basic : ∀ sub, (c.info 0#32 sub).eax = c.maxBasic
  extended : 0x80000000#32 ≤ c.maxExtended ∧ ∀ sub, (c.info 0x80000000#32 sub).eax = c.maxExtended
  basicLow : c.maxBasic < 0x80000000#32
  flat : ∀ sub, c.info 1#32 sub = c.info 1#32 0#32 ∧ c.info 0x80000001#32 sub = c.info 0x80000001#32 0#32 ∧
    c.info 0x80000007#32 sub = c.info 0x80000007#32 0#32
  has : ∀ f, c.has f = (c.leaf (reported f).1 && ((reported f).2.1 (c.info (reported f).1 0#32)).getLsbD (reported f).2.2)

/-- multiboot1_header.asm:4-6, 32-bit numbers. -/
def multiboot1 : List (BitVec 32) := [0x1BADB002#32, 3#32, -(0x1BADB002#32 + 3#32)]

/-- multiboot2_header.asm:4-12, bytes; `length` is `header_end - header_start`, given as 4 numbers of 32 bits, two of 16 bits and one of 32 bits. -/
def multiboot2 (length : Nat) : List (BitVec 32) :=
  [0xe85250d6#32, 0#32, BitVec.ofNat 32 length, BitVec.ofNat 32 (0x100000000 - (0xe85250d6 + 0 + length)), 0#32, 8#32]

end Verif.Boot
