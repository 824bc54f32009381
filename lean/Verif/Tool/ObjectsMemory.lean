/-
Model of the memory of the symbolic execution, /repo/tool/kalm/memory/objects.py: a pointer into
an object that was allocated goes to that object, any other pointer to a memory of bytes.

Uses the models of `base_index_offset` (Verif.Tool.Expr) and of the heap (Verif.Tool.Heap). An
expression has a value under each assignment of the symbols, and so do the contents of the
objects; what the code asserts must hold under all assignments that satisfy the constraints.
A bit vector is the list of its bits, lowest first. An exception is the result `none`.

Simplifications.
* Objects are those of the heap (heap.py:64); those of descriptor rings and agents have another
  reader and writer (C32).
* Bases are symbols. The search for bases that are numbers, utils.py:201-215, is for other
  programs than network functions; with symbols it finds nothing.
* The memory of bytes is angr's. It contains something at every address: without the option
  STRICT_PAGE_ACCESS, which executor.py:29-36 does not set, angr makes up contents where there are none.
-/
import Verif.Tool.Expr
import Verif.Tool.Heap

set_option autoImplicit false

namespace Verif.Tool.ObjectsMemory
open Verif.Tool.Expr
open Verif.Tool.Heap

/-- objects.py:9, 33-34: what is known about an object, with its contents. The size of an element is in
bytes. -/
structure Special where
  base : Exp
  size : Size
  obj : Asg → Obj

/-- The memory: objects, and bits of other memory; bit `i` of the byte at address `a` is bit `8 * a + i`. -/
structure State where
  objs : List Special
  flat : Asg → Nat → Bool

/-- The metadata of objects.py:12, 20. -/
def State.keys (s : State) : List (Exp × Size) := s.objs.map fun o => (o.base, o.size)

/-- utils.py:195-233 with `allow_failure=True`, on the simplified address: the object with index and
offset, or none if there is no object. metadata.py:63-64: several bases are an exception. -/
noncomputable def lookup (C : Asg → Prop) (minus : Exp → Nat → Exp) (keys : List (Exp × Size)) (addr : Exp) : Option (Option Bio) :=
  open Classical in
  match addr with
  | .add args =>
    match matching keys args with
    | [] => some none
    | [(base, size)] => (decompose C minus args base size).map some
    | _ => none
  | addr => if (keys.any fun k => decide (k.1 = addr)) then some (some ⟨addr, fun _ => 0, 0⟩) else some none

/-- The bits of `n` bytes from address `a` on. -/
def bitsAt (mem : Nat → Bool) (a n : Nat) : Bits := (List.range (8 * n)).map fun i => mem (8 * a + i)

/-- The memory after storing a value at address `a`. -/
def setBits (mem : Nat → Bool) (a : Nat) (v : Bits) : Nat → Bool :=
  fun i => if 8 * a ≤ i ∧ i < 8 * a + v.length then v.getD (i - 8 * a) false else mem i

/-- objects.py:17 with heap.py:114-143: reading must succeed under all assignments. -/
noncomputable def readObj (C : Asg → Prop) (o : Special) (r : Bio) (size : Nat) (rev : Bool) : Option (Asg → Bits) :=
  open Classical in
  if ∀ ρ, C ρ → (Heap.read (o.obj ρ) (r.index ρ) (8 * r.offset) size rev).isSome then
    some fun ρ => (Heap.read (o.obj ρ) (r.index ρ) (8 * r.offset) size rev).getD []
  else none

/-- objects.py:11-17 `load`; the size is in bytes, `rev` tells whether the byte order is the opposite of
the machine's. -/
noncomputable def load (K : Claripy) (fuel : Nat) (minus : Exp → Nat → Exp) (C : Asg → Prop) (s : State) (addr : Exp)
    (size : Nat) (rev : Bool) : Option (Asg → Bits) :=
  open Classical in do
  let a ← simplify K C fuel addr []
  match ← lookup C minus s.keys a with
  | none =>
    let p ← evalOne C fun ρ => eval ρ addr
    some fun ρ => (maybeRev rev (bitsAt (s.flat ρ) p size)).getD []
  | some r =>
    let o ← s.objs.find? fun o => decide (o.base = r.base)
    readObj C o r size rev

/-- objects.py:26 with heap.py:145-190: writing must succeed under all assignments. -/
noncomputable def writeObj (C : Asg → Prop) (o : Special) (r : Bio) (v : Asg → Bits) (rev : Bool) : Option Special :=
  open Classical in
  if ∀ ρ, C ρ → (Heap.write (o.obj ρ) (r.index ρ) (8 * r.offset) (v ρ) rev).isSome then
    some { o with obj := fun ρ => (Heap.write (o.obj ρ) (r.index ρ) (8 * r.offset) (v ρ) rev).getD (o.obj ρ) }
  else none

/-- objects.py:19-26 `store`. -/
noncomputable def store (K : Claripy) (fuel : Nat) (minus : Exp → Nat → Exp) (C : Asg → Prop) (s : State) (addr : Exp)
    (v : Asg → Bits) (rev : Bool) : Option State :=
  open Classical in do
  let a ← simplify K C fuel addr []
  match ← lookup C minus s.keys a with
  | none =>
    let p ← evalOne C fun ρ => eval ρ addr
    some { s with flat := fun ρ => setBits (s.flat ρ) p ((maybeRev rev (v ρ)).getD []) }
  | some r =>
    let o ← s.objs.find? fun o => decide (o.base = r.base)
    let o' ← writeObj C o r v rev
    some { s with objs := s.objs.map fun x => if x.base = r.base then o' else x }

/-- An access of the program, in the byte order of the machine. -/
inductive Access where
  | load (C : Asg → Prop) (addr : Exp) (size : Nat)
  | store (C : Asg → Prop) (addr : Exp) (v : Asg → Bits)

/-- A sequence of accesses; the values that were loaded. -/
noncomputable def accesses (K : Claripy) (fuel : Nat) (minus : Exp → Nat → Exp) : State → List Access → Option (State × List (Asg → Bits))
  | s, [] => some (s, [])
  | s, .load C addr size :: rest => do
    let v ← load K fuel minus C s addr size false
    let (s, vs) ← accesses K fuel minus s rest
    some (s, v :: vs)
  | s, .store C addr v :: rest => do
    let s ← store K fuel minus C s addr v false
    accesses K fuel minus s rest

end Verif.Tool.ObjectsMemory
