/-
Model of the symbolic heap: /repo/tool/klint/heap.py, and of the memory of descriptor rings and agents: `_custom_memory`,
/repo/tool/klint/externals/verif/verif.py:11-46.

A bit vector is the list of its bits, lowest first. The model is of one assignment of the symbols: the ghost maps of an
allocation are given by their contents (what a read or an update of a ghost map does to the contents is modelled in
`GhostMap.lean`), and an assertion that a condition holds in all assignments is modelled as the condition in this one. An
exception or a failed assertion is `none`. Offsets are smaller than an element, as /repo/tool/kalm/utils.py:191-236 makes them; slices
are then within bounds unless the code raises.
-/
set_option autoImplicit false

namespace Verif.Tool.Heap

abbrev Bits := List Bool

/-- claripy `.reversed` for a number of bits that is a multiple of 8: the bytes in the opposite order. -/
def revBytes (x : Bits) : Bits := (List.range x.length).map fun j => x.getD (x.length - 8 - 8 * (j / 8) + j % 8) false

/-- claripy `.reversed`, which raises for other numbers of bits. -/
def reversed (x : Bits) : Option Bits := if x.length % 8 = 0 then some (revBytes x) else none

/-- `x.reversed` if the flag is set, as heap.py does with `reverse_endness`. -/
def maybeRev (rev : Bool) (x : Bits) : Option Bits := if rev then reversed x else some x

/-- One allocation: heap.py:12 `Metadata` with its two ghost maps. `width` is the number of bits of an element; each element
has a value and may be present. The fractions are 8-bit numbers; there are none for an ephemeral allocation. -/
structure Obj where
  count : Nat
  width : Nat
  contents : Nat → Bits × Bool
  fractions : Option (Nat → Nat × Bool)

/-- heap.py:122-128: whether an element may be read. -/
def Obj.canRead (o : Obj) (index : Nat) : Bool :=
  match o.fractions with
  | none => (o.contents index).2
  | some f => (f index).2 && (f index).1 != 0

/-- heap.py:155-160: whether an element may be written. -/
def Obj.canWrite (o : Obj) (index : Nat) : Bool :=
  match o.fractions with
  | none => true
  | some f => (f index).2 && (f index).1 == 100

/-- heap.py:186 `maps.set`: the element is present afterwards. -/
def Obj.setElem (o : Obj) (index : Nat) (v : Bits) : Obj := { o with contents := fun k => if k = index then (v, true) else o.contents k }

/-- heap.py:119-132: the elements from `index` until there are `total` bits. The first argument bounds the number of
iterations, which suffices unless elements have no bits, for which the loop does not end. -/
def readLoop (o : Obj) (total : Nat) : Nat → Nat → Bits → Option Bits
  | 0, _, result => if result.length < total then none else some result
  | fuel + 1, index, result =>
    if result.length < total then
      if o.canRead index then readLoop o total fuel ((index + 1) % 2 ^ 64) (result ++ (o.contents index).1) else none
    else some result

/-- heap.py:114-143 `_read`; the offset is in bits and the size in bytes. -/
def read (o : Obj) (index offset size : Nat) (rev : Bool) : Option Bits :=
  match readLoop o (size * 8 + offset) (size * 8 + offset) index [] with
  | none => none
  | some result =>
    match maybeRev rev result with
    | none => none
    | some result => some ((result.drop offset).take (size * 8))

/-- heap.py:162-167: the bits to write to an element. -/
def chunkOf (width offset : Nat) (rest : Bits) : Bits :=
  let chunk := rest.take (min rest.length width)
  if offset ≠ 0 then chunk.take (min chunk.length (width - offset)) else chunk

/-- heap.py:175-182: the bits together with those of the element that stay. -/
def merged (width offset : Nat) (chunk current : Bits) : Bits :=
  if chunk.length ≠ width then
    let chunk := if offset ≠ 0 then current.take offset ++ chunk else chunk
    if chunk.length ≠ current.length then chunk ++ current.drop chunk.length else chunk
  else chunk

/-- heap.py:174-186: the element after writing the bits. In the opposite byte order the element is reversed, changed and
reversed back. -/
def writeElem (o : Obj) (index offset : Nat) (chunk : Bits) (rev : Bool) : Option Obj :=
  match maybeRev (rev && chunk.length != o.width) (o.contents index).1 with
  | none => none
  | some current =>
    match maybeRev rev (merged o.width offset chunk current) with
    | none => none
    | some v => some (o.setElem index v)

/-- heap.py:152-190: the loop of `_write`. The first argument bounds the number of iterations; it suffices when elements have bits
and the offset is within the element. -/
def writeLoop (rev : Bool) : Nat → Obj → Nat → Nat → Bits → Option Obj
  | 0, o, _, _, rest => if rest.length = 0 then some o else none
  | fuel + 1, o, index, offset, rest =>
    if rest.length = 0 then some o
    else if o.canWrite index then
      let chunk := chunkOf o.width offset rest
      match writeElem o index offset chunk rev with
      | none => none
      | some o => writeLoop rev fuel o ((index + 1) % 2 ^ 64) 0 (rest.drop chunk.length)
    else none

/-- heap.py:145-190 `_write`; the offset is in bits. -/
def write (o : Obj) (index offset : Nat) (value : Bits) (rev : Bool) : Option Obj := writeLoop rev value.length o index offset value

/-- heap.py:70-86 `take`; a fraction of none is all of it. Returns the ownership before. -/
def take (o : Obj) (fraction : Option Nat) (index offset : Nat) : Option (Nat × Obj) :=
  if offset ≠ 0 then none
  else match o.fractions with
    | none => none
    | some f =>
      let fraction := fraction.getD (f index).1
      if (f index).2 && decide (fraction ≤ (f index).1) then
        some ((f index).1, { o with fractions := some fun k => if k = index then ((f index).1 - fraction, true) else f k })
      else none

/-- heap.py:89-101 `give`; the addition is of 8-bit numbers. -/
def give (o : Obj) (fraction : Nat) (index offset : Nat) : Option Obj :=
  if offset ≠ 0 then none
  else match o.fractions with
    | none => none
    | some f =>
      if (f index).2 && decide (((f index).1 + fraction) % 256 ≤ 100) then
        some { o with fractions := some fun k => if k = index then (((f index).1 + fraction) % 256, true) else f k }
      else none

/-- heap.py:21-66 `allocate`: `contents` and `fractions` are what the new arrays hold where nothing is required. Arrays have the
indices below the count (ghostmaps.py:162-164). The constraints on the address are not modelled. -/
def allocate (count size : Nat) (ephemeral : Bool) (default : Option Bits) (defaultFraction : Option Nat) (contents : Nat → Bits) (fractions : Nat → Nat) : Option Obj :=
  if size > 4096 then none
  else some {
    count := count, width := size * 8,
    contents := fun k => (default.getD (contents k), decide (k < count)),
    fractions := if ephemeral then none else some fun k => (defaultFraction.getD (fractions k), decide (k < count)) }

/-- The memory of `_custom_memory`, verif.py:11-46: elements are created as zeroes when first used. -/
structure Custom where
  count : Nat
  width : Nat
  elems : Nat → Option Bits

/-- verif.py:23 and 35: `memory.setdefault`. -/
def Custom.elem (m : Custom) (index : Nat) : Bits := (m.elems index).getD (List.replicate m.width false)

def Custom.setElem (m : Custom) (index : Nat) (v : Bits) : Custom := { m with elems := fun k => if k = index then some v else m.elems k }

/-- verif.py:12-26 `reader`; without a size, all of the element. claripy raises for a slice that is not within the value. -/
def Custom.read (m : Custom) (index offset : Nat) (size : Option Nat) (rev : Bool) : Option (Bits × Custom) :=
  let size := match size with
    | none => m.width
    | some s => s * 8
  if index < m.count then
    if offset + size ≤ m.width ∧ 0 < size then
      match maybeRev rev (((m.elem index).drop offset).take size) with
      | none => none
      | some r => some (r, m.setElem index (m.elem index))
    else none
  else none

/-- verif.py:28-44 `writer`. A value that reaches beyond the element makes the slice of line 41 raise, unless it ends exactly there. -/
def Custom.write (m : Custom) (index offset : Nat) (value : Bits) (rev : Bool) : Option Custom :=
  if index < m.count then
    match maybeRev rev (m.elem index) with
    | none => none
    | some existing =>
      let value := if offset ≠ 0 then existing.take offset ++ value else value
      if value.length ≤ m.width then
        match maybeRev rev (if value.length ≠ m.width then value ++ existing.drop value.length else value) with
        | none => none
        | some v => some (m.setElem index v)
      else none
  else none

end Verif.Tool.Heap
