/-
Model of the values that specifications work with: /repo/tool/klint/verif/value_proxy.py:49-77 (the
operations), /repo/tool/klint/verif/spec_prefix.py:29-66 (types), 235-256 (devices), 262-307, 336-371
(packet headers) and 389-409, and /repo/tool/klint/externals/net/tx.py (what is recorded of a
transmission).

Types and headers whose fields have no bits at all are outside the model (`x[-1:0]` is the whole value).
Expressions are represented by their value under an arbitrary assignment of the symbols; nothing
modelled here depends on more than that. Exceptions (failed assertions, invalid extractions) are `none`.
-/
import Verif.Nf.Runtime

set_option autoImplicit false

namespace Verif.Tool.SpecValue

/-! ### value_proxy.py: operations -/

/-- The comparisons of value_proxy.py:139-155; those of claripy are unsigned. -/
inductive Cmp where
  | eq | ne | lt | le | gt | ge

def Cmp.bv {w : Nat} : Cmp → BitVec w → BitVec w → Bool
  | .eq, a, b => a == b
  | .ne, a, b => !(a == b)
  | .lt, a, b => a.ult b
  | .le, a, b => a.ule b
  | .gt, a, b => b.ult a
  | .ge, a, b => b.ule a

/-- The operations of value_proxy.py:129-137, 157-180. -/
inductive Arith where
  | add | sub | mul | floordiv | and | or | shl | lshr | rsub | rfloordiv

def Arith.bv {w : Nat} : Arith → BitVec w → BitVec w → BitVec w
  | .add, a, b => a + b
  | .sub, a, b => a - b
  | .mul, a, b => a * b
  | .floordiv, a, b => BitVec.smtUDiv a b
  | .and, a, b => a &&& b
  | .or, a, b => a ||| b
  | .shl, a, b => a <<< b
  | .lshr, a, b => a >>> b
  | .rsub, a, b => b - a
  | .rfloordiv, a, b => BitVec.smtUDiv b a

/-- value_proxy.py:64-70: the other operand is zero-extended if it is narrower and truncated if it is
wider; both are `setWidth`. -/
def adapt (w : Nat) {v : Nat} (b : BitVec v) : BitVec w := b.setWidth w

/-- value_proxy.py:49-77 `_op` for comparisons. -/
def cmpOp {w v : Nat} (op : Cmp) (a : BitVec w) (b : BitVec v) : Bool := op.bv a (adapt w b)

/-- value_proxy.py:49-77 `_op` for the others: the result is zero-extended if the other operand is wider. -/
def bvOp {w v : Nat} (op : Arith) (a : BitVec w) (b : BitVec v) : BitVec (max w v) := (op.bv a (adapt w b)).setWidth (max w v)

/-- value_proxy.py:57-60: a Python integer as the other operand. -/
def ofInt (w : Nat) (n : Int) : BitVec (max 8 w) := BitVec.ofInt (max 8 w) n

/-! ### spec_prefix.py: types -/

/-- A claripy bit vector: its size and its value, which is below 2^size. -/
structure Bv where
  size : Nat
  val : Nat
deriving DecidableEq, Repr

/-- claripy `x[hi:lo]`. -/
def Bv.slice (x : Bv) (hi lo : Nat) : Option Bv :=
  if lo ≤ hi ∧ hi < x.size then some ⟨hi - lo + 1, x.val / 2 ^ lo % 2 ^ (hi - lo + 1)⟩ else none

/-- claripy `hi.concat(lo)`. -/
def Bv.concat (hi lo : Bv) : Bv := ⟨hi.size + lo.size, 2 ^ lo.size * hi.val + lo.val⟩

/-- claripy `x.zero_extend(n)`. -/
def Bv.zeroExtend (x : Bv) (n : Nat) : Bv := ⟨x.size + n, x.val⟩

/-- A type: a number of bits (also for names such as "uint16_t"), or a record. -/
inductive Ty where
  | bits (n : Nat)
  | record (fields : List (String × Ty))

mutual
/-- spec_prefix.py:29-34 `type_size`. -/
def Ty.size : Ty → Nat
  | .bits n => n
  | .record fs => fieldsSize fs
def fieldsSize : List (String × Ty) → Nat
  | [] => 0
  | f :: fs => f.2.size + fieldsSize fs
end

/-- A value as specifications see it. -/
inductive View where
  | plain (v : Bv)
  | fields (fs : List (String × Bv))

/-- spec_prefix.py:40-43: the loop of `type_wrap`. -/
def wrapFields (v : Bv) : Nat → List (String × Ty) → Option (List (String × Bv))
  | _, [] => some []
  | offset, f :: fs =>
    match v.slice (f.2.size + offset - 1) offset with
    | none => none
    | some x =>
      match wrapFields v (offset + f.2.size) fs with
      | none => none
      | some xs => some ((f.1, x) :: xs)

/-- spec_prefix.py:36-44 `type_wrap`. -/
def wrap (v : Bv) : Ty → Option View
  | .bits _ => some (.plain v)
  | .record fs => (wrapFields v 0 fs).map .fields

/-- spec_prefix.py:58-63: later fields are more significant. -/
def concatAll : List (String × Bv) → Option Bv
  | [] => none
  | f :: fs => some (fs.foldl (fun r g => g.2.concat r) f.2)

/-- spec_prefix.py:64-65, 50-51. -/
def extendTo (n : Nat) (v : Bv) : Bv := if v.size < n then v.zeroExtend (n - v.size) else v

/-- spec_prefix.py:46-66 `type_unwrap` to a number of bits; no caller passes a record type. -/
def unwrap (x : View) (n : Nat) : Option Bv :=
  match x with
  | .plain v => some (extendTo n v)
  | .fields fs => (concatAll fs).map (extendTo n)

/-! ### spec_prefix.py: packet headers -/

/-- spec_prefix.py:276-282: the position and size in bits of an attribute. -/
def findAttr (attr : String) : Nat → List (String × Nat) → Option (Nat × Nat)
  | _, [] => none
  | offset, f :: fs => if f.1 = attr then some (offset, f.2) else findAttr attr (offset + f.2) fs

/-- spec_prefix.py:287-295: reading bytes of the packet until there are `need` bits. An index that is
not in the packet fails the assertion. The first argument bounds the iterations. -/
def readChunks (bytes : List UInt8) (need : Nat) : Nat → Nat → Bv → Option Bv
  | 0, _, r => if r.size < need then none else some r
  | k + 1, index, r =>
    if r.size < need then
      match bytes[index]? with
      | none => none
      | some b => readChunks bytes need k (index + 1) (Bv.concat ⟨8, b.toNat⟩ r)
    else some r

/-- spec_prefix.py:296-297: `result[:offset]` drops the low bits. -/
def dropLow (r : Bv) (offset : Nat) : Option Bv := if offset ≠ 0 then r.slice (r.size - 1) offset else some r

/-- spec_prefix.py:298-299. -/
def keepLow (r : Bv) (size : Nat) : Option Bv := if r.size > size then r.slice (size - 1) 0 else some r

/-- spec_prefix.py:284-300. -/
def readBits (bytes : List UInt8) (offset size : Nat) : Option Bv :=
  match readChunks bytes (size + offset % 8) (size + offset % 8) (offset / 8) ⟨0, 0⟩ with
  | none => none
  | some r => match dropLow r (offset % 8) with
    | none => none
    | some r => keepLow r size

/-- spec_prefix.py:262-267. -/
structure Header where
  offset : Nat
  attrs : List (String × Nat)

/-- spec_prefix.py:269-300 `__getattr__`. -/
def Header.attr (h : Header) (bytes : List UInt8) (name : String) : Option Bv :=
  match findAttr name h.offset h.attrs with
  | none => none
  | some (offset, size) => readBits bytes offset size

/-- spec_prefix.py:302-307 `as_value`, without the initial None. -/
def Header.concatFrom (h : Header) (bytes : List UInt8) : Bv → List (String × Nat) → Option Bv
  | r, [] => some r
  | r, f :: fs =>
    match h.attr bytes f.1 with
    | none => none
    | some v => h.concatFrom bytes (v.concat r) fs

def Header.asValue (h : Header) (bytes : List UInt8) : Option Bv :=
  match h.attrs with
  | [] => none
  | f :: fs =>
    match h.attr bytes f.1 with
    | none => none
    | some v => h.concatFrom bytes v fs

/-- spec_prefix.py:337-342. -/
def ether : Header := ⟨0, [("dst", 48), ("src", 48), ("type", 16)]⟩

/-- spec_prefix.py:345-361, given that the Ethernet type is IPv4. -/
def ipv4 : Header := ⟨48 + 48 + 16,
  [("ihl", 4), ("version", 4), ("dscp", 6), ("ecn", 2), ("total_length", 16), ("identification", 16), ("flags", 3),
   ("fragment_offset", 13), ("time_to_live", 8), ("protocol", 8), ("checksum", 16), ("src", 32), ("dst", 32)]⟩

/-- spec_prefix.py:364-370, given that the protocol is TCP or UDP. -/
def tcpudp : Header := ⟨(48 + 48 + 16) + (8 + 8 + 16 + 16 + 16 + 8 + 8 + 16 + 32 + 32), [("src", 16), ("dst", 16)]⟩

/-! ### Devices -/

/-- tx.py:9 `TransmissionMetadata`, as far as devices are concerned. -/
structure Transmission where
  isFlood : Bool
  device : Nat
  excluded : Option (List Bool)

/-- tx.py:11-50: what the symbolic net_transmit, net_flood and net_flood_except record. -/
def record : Nf.Out → Transmission
  | .transmit _ device _ => ⟨false, device, none⟩
  | .flood p _ => ⟨true, p.device, none⟩
  | .floodExcept p disabled _ => ⟨true, p.device, some disabled⟩

/-- spec_prefix.py:400-403 with 240-241 and 251-252: whether a device is in `devices`. -/
def contains (t : Transmission) (item : Nat) : Bool := if t.isFlood then !(item == t.device) else item == t.device

/-- spec_prefix.py:243-245, 254-256. -/
def length (t : Transmission) (devicesCount : Nat) : Nat := if t.isFlood then devicesCount - 1 else 1

end Verif.Tool.SpecValue
