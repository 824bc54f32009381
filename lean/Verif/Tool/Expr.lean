/-
Bit-vector expressions, and the model of `simplify`, `base_index_offset` and their helpers,
/repo/tool/kalm/utils.py:144-323.

Conventions: an expression evaluates to a natural number below 2 ^ width. Boolean conditions and
operators that the modelled code does not look into are opaque names with a meaning given by the
assignment. `C : Asg → Prop` is the set of assignments satisfying the state's constraints, and the
solver answers exactly. none is an exception.
-/
import Mathlib.Data.List.Basic
import Mathlib.Algebra.BigOperators.Group.List.Basic
import Mathlib.Data.Int.ModEq

set_option autoImplicit false

namespace Verif.Tool.Expr

/-- claripy expressions, as far as utils.py distinguishes them (n-ary operators as in claripy). -/
inductive Exp where
  | bvv (w v : Nat)
  | bvs (w : Nat) (name : Nat)
  | add (args : List Exp)
  | sub (args : List Exp)
  | mul (args : List Exp)
  | shl (a b : Exp)
  | concat (args : List Exp)
  | zext (n : Nat) (e : Exp)
  | extract (hi lo : Nat) (e : Exp)
  | ite (c : Nat) (a b : Exp)
  | other (w : Nat) (name : Nat) (args : List Exp)

/-- An assignment. -/
structure Asg where
  bv : Nat → Nat
  cond : Nat → Bool
  fn : Nat → List Nat → Nat

mutual
/-- `size()` -/
def width : Exp → Nat
  | .bvv w _ => w
  | .bvs w _ => w
  | .add args => widthHead args
  | .sub args => widthHead args
  | .mul args => widthHead args
  | .shl a _ => width a
  | .concat args => widthSum args
  | .zext n e => n + width e
  | .extract hi lo _ => hi + 1 - lo
  | .ite _ a _ => width a
  | .other w _ _ => w
def widthHead : List Exp → Nat
  | [] => 0
  | e :: _ => width e
def widthSum : List Exp → Nat
  | [] => 0
  | e :: es => width e + widthSum es
end

/-- The value of an integer in `w` bits. -/
def wrap (w : Nat) (z : Int) : Nat := (z % (2 ^ w : Nat)).toNat

mutual
/-- The value under an assignment, with SMT's semantics. -/
def eval (ρ : Asg) : Exp → Nat
  | .bvv w v => v % 2 ^ w
  | .bvs w name => ρ.bv name % 2 ^ w
  | .add args => (evalList ρ args).sum % 2 ^ widthHead args
  | .sub args => wrap (widthHead args) (2 * (evalList ρ args).headD 0 - (evalList ρ args).sum)
  | .mul args => (evalList ρ args).prod % 2 ^ widthHead args
  | .shl a b => eval ρ a * 2 ^ eval ρ b % 2 ^ width a
  | .concat args => evalConcat ρ args
  | .zext _ e => eval ρ e
  | .extract hi lo e => eval ρ e / 2 ^ lo % 2 ^ (hi + 1 - lo)
  | .ite c a b => if ρ.cond c then eval ρ a else eval ρ b
  | .other w name args => ρ.fn name (evalList ρ args) % 2 ^ w
def evalList (ρ : Asg) : List Exp → List Nat
  | [] => []
  | e :: es => eval ρ e :: evalList ρ es
def evalConcat (ρ : Asg) : List Exp → Nat
  | [] => 0
  | e :: es => eval ρ e * 2 ^ widthSum es + evalConcat ρ es
end

mutual
/-- The widths fit, as claripy enforces. -/
def WF : Exp → Prop
  | .bvv _ _ => True
  | .bvs _ _ => True
  | .add args => args ≠ [] ∧ WFAll (widthHead args) args
  | .sub args => args ≠ [] ∧ WFAll (widthHead args) args
  | .mul args => args ≠ [] ∧ WFAll (widthHead args) args
  | .shl a b => WF a ∧ WF b ∧ width a = width b
  | .concat args => WFEach args
  | .zext _ e => WF e
  | .extract _ _ e => WF e
  | .ite _ a b => WF a ∧ WF b ∧ width a = width b
  | .other _ _ args => WFEach args
def WFAll (w : Nat) : List Exp → Prop
  | [] => True
  | e :: es => WF e ∧ width e = w ∧ WFAll w es
def WFEach : List Exp → Prop
  | [] => True
  | e :: es => WF e ∧ WFEach es
end

mutual
/-- `symbolic`: mentions a symbol (opaque operators and conditions count as such). -/
def symbolic : Exp → Bool
  | .bvv _ _ => false
  | .bvs _ _ => true
  | .add args => symbolicAny args
  | .sub args => symbolicAny args
  | .mul args => symbolicAny args
  | .shl a b => symbolic a || symbolic b
  | .concat args => symbolicAny args
  | .zext _ e => symbolic e
  | .extract _ _ e => symbolic e
  | .ite _ _ _ => true
  | .other _ _ _ => true
def symbolicAny : List Exp → Bool
  | [] => false
  | e :: es => symbolic e || symbolicAny es
end

/-! ### The linear decomposition -/

/-- A multiplier: a Python integer (`width = none`) or a bit vector, with its value if it is a
constant. -/
structure Coef where
  width : Option Nat
  val : Asg → Int
  const : Option Int

def Coef.int (z : Int) : Coef := ⟨none, fun _ => z, some z⟩

/-- Bit vectors are reduced. -/
def norm : Option Nat → Int → Int
  | none, z => z
  | some w, z => wrap w z

/-- The width of an operation on two multipliers; none if claripy rejects it. -/
def joinWidth : Option Nat → Option Nat → Option (Option Nat)
  | none, x => some x
  | x, none => some x
  | some a, some b => if a = b then some (some a) else none

/-- A binary operation on multipliers. -/
def Coef.op (f : Int → Int → Int) (x y : Coef) : Option Coef :=
  (joinWidth x.width y.width).map fun w =>
    ⟨w, fun ρ => norm w (f (x.val ρ) (y.val ρ)), match x.const, y.const with
      | some a, some b => some (norm w (f a b))
      | _, _ => none⟩

/-- The value of a constant expression. -/
def constOf : Exp → Option Nat
  | .bvv w v => some (v % 2 ^ w)
  | _ => none

/-- `m << b` of utils.py:247, where b is an expression. -/
def Coef.shl (m : Coef) (b : Exp) : Option Coef :=
  m.op (fun x y => x * 2 ^ y.toNat) ⟨some (Expr.width b), fun ρ => eval ρ b, Option.map (fun (v : Nat) => (v : Int)) (constOf b)⟩

/-- `m << k` of utils.py:244, where k is an integer. -/
def Coef.shlInt (m : Coef) (k : Nat) : Option Coef := m.op (fun x y => x * 2 ^ y.toNat) (.int k)

abbrev Dict := List (Exp × Coef)

open Classical in
/-- utils.py:254-255, 295-298: adding to the multiplier of a key. -/
noncomputable def addTo : Dict → Exp → Coef → Option Dict
  | [], e, m => some [(e, m)]
  | (e', m') :: d, e, m =>
    if e' = e then (m'.op (· + ·) m).map fun s => (e, s) :: d
    else (addTo d e m).map fun d' => (e', m') :: d'

noncomputable def addAll (d : Dict) : Dict → Option Dict
  | [] => some d
  | (e, m) :: rest => (addTo d e m).bind fun d' => addAll d' rest

/-- `coeff * m` for all entries. -/
def scale (z : Int) (d : Dict) : Option Dict :=
  d.mapM fun em => (em.2.op (· * ·) (.int z)).map fun m => (em.1, m)

/-- utils.py:248-257: sums up the decompositions of the arguments; `sign` is the coefficient of the
arguments after the first. -/
noncomputable def sumUp (sign : Int) : Bool → Dict → List (Option Dict) → Option Dict
  | _, d, [] => some d
  | first, d, nested :: rest => do
    let nested ← nested
    let nested ← scale (if first then 1 else sign) nested
    let d ← addAll d nested
    sumUp sign false d rest

/-- utils.py:258-277: `__mul__`. The outer none: no case applies (more than one symbolic
argument). A constant that is not a BVV is an exception wherever it stands. -/
noncomputable def mulCase (args : List Exp) (nested : List (Option Dict)) : Option (Option Dict) :=
  if args.any (fun a => !symbolic a && (constOf a).isNone) then some none
  else
    match (args.zip nested).filter (fun an => symbolic an.1) with
    | [] => some none
    | [(_, d)] =>
      match args.filterMap constOf with
      | [] => some d
      | cons => some (d.bind (scale ((cons.map fun (v : Nat) => (v : Int)).prod)))
    | _ => none

/-- utils.py:278-285: `If`. The outer none: no case applies. Integer multipliers are compared;
testing the comparison of bit vectors for truth is an exception. -/
def iteCase (c : Nat) (left right : Option Dict) : Option (Option Dict) :=
  match left, right with
  | some [(lk, lm)], some [(rk, rm)] =>
    match lm.width, rm.width, lm.const, rm.const with
    | none, none, some a, some b => if a = b then some (some [(.ite c lk rk, lm)]) else none
    | _, _, _, _ => some none
  | some _, some _ => none
  | _, _ => some none

/-- utils.py:241-244: `Concat` with a zero low part. The outer none: no case applies. -/
def concatCase (args : List Exp) (nested : List (Option Dict)) : Option (Option Dict) :=
  match args, nested with
  | [_, .bvv k 0], d :: _ =>
    some (d.bind fun d => d.mapM fun em => (em.2.shlInt k).map fun m => (.zext k em.1, m))
  | _, _ => none

mutual
/-- utils.py:240-286 `_as_mult_add`. -/
noncomputable def asMultAdd : Exp → Option Dict
  | .concat args => (concatCase args (asMultAddEach args)).getD (some [(.concat args, .int 1)])
  | .shl a b => (asMultAdd a).bind fun d => d.mapM fun em => (em.2.shl b).map fun m => (em.1, m)
  | .add args => sumUp 1 true [] (asMultAddEach args)
  | .sub args => sumUp (-1) true [] (asMultAddEach args)
  | .mul args => (mulCase args (asMultAddEach args)).getD (some [(.mul args, .int 1)])
  | .ite c a b => (iteCase c (asMultAdd a) (asMultAdd b)).getD (some [(.ite c a b, .int 1)])
  | .bvv w v => some [(.bvv w v, .int 1)]
  | .bvs w n => some [(.bvs w n, .int 1)]
  | .zext n e => some [(.zext n e, .int 1)]
  | .extract hi lo e => some [(.extract hi lo e, .int 1)]
  | .other w n args => some [(.other w n args, .int 1)]
noncomputable def asMultAddEach : List Exp → List (Option Dict)
  | [] => []
  | e :: es => asMultAdd e :: asMultAddEach es
end

section outer
open Classical

/-- utils.py:292-294: `(0 .. x[k:0])` becomes x if they are equal under the constraints; claripy
refuses to compare different widths. -/
noncomputable def regroup (C : Asg → Prop) (e : Exp) : Option Exp :=
  match e with
  | .zext _ (.extract _ 0 x) =>
    if width x = width e then
      if ∀ ρ, C ρ → eval ρ x = eval ρ e then some x else some e
    else none
  | e => some e

/-- utils.py:289-299 `_as_mult_add_outer`. -/
noncomputable def outerLoop (C : Asg → Prop) : Dict → Dict → Option Dict
  | acc, [] => some acc
  | acc, (e, m) :: rest => do
    let e ← regroup C e
    let acc ← addTo acc e m
    outerLoop C acc rest

noncomputable def asMultAddOuter (C : Asg → Prop) (e : Exp) : Option Dict := (asMultAdd e).bind (outerLoop C [])

/-- A size: a 64-bit value with its value if it is a constant. -/
structure Size where
  val : Asg → Nat
  const : Option Nat

/-- `(m % b == 0).is_true()` of utils.py:307, 319: known only for constants (claripy folds
them). -/
def coefDivides (b : Size) (m : Coef) : Bool :=
  match m.const, b.const with
  | some z, some k => wrap 64 z % k == 0
  | _, _ => false

/-- `(e.ast % b == 0).is_true()` of utils.py:307. -/
def expDivides (b : Size) (e : Exp) : Bool :=
  match constOf e, b.const with
  | some v, some k => v % k == 0
  | _, _ => false

/-- Multipliers of another width than the address cannot be combined with it. -/
def usable (d : Dict) : Bool := d.all fun em => em.2.width == none || em.2.width == some 64

/-- utils.py:302-309 `_modulo_simplify`, as a value. -/
noncomputable def moduloSimplify (C : Asg → Prop) (a : Exp) (b : Size) : Option (Asg → Nat) :=
  ((asMultAddOuter C a).filter usable).map fun d ρ =>
    wrap 64 ((d.filter fun em => !expDivides b em.1 && !coefDivides b em.2).map fun em => (eval ρ em.1 : Int) * em.2.val ρ).sum % b.val ρ

/-- utils.py:318-321 `make_term`, as a value. -/
def makeTerm (b : Size) (ρ : Asg) (em : Exp × Coef) : Nat :=
  if coefDivides b em.2 then eval ρ em.1 else wrap 64 (eval ρ em.1 * em.2.val ρ) / b.val ρ

/-- utils.py:312-323 `_div_simplify`, as a value. -/
noncomputable def divSimplify (C : Asg → Prop) (a : Exp) (b : Size) : Option (Asg → Nat) :=
  if constOf a = some 0 then some fun _ => 0
  else if b.const = some 1 then some fun ρ => eval ρ a
  else ((asMultAddOuter C a).filter usable).map fun d ρ => (d.map (makeTerm b ρ)).sum % 2 ^ 64

/-- `eval_one` of utils.py:222: the only value under the constraints. -/
noncomputable def evalOne (C : Asg → Prop) (v : Asg → Nat) : Option Nat :=
  if h : ∃ n, (∃ ρ, C ρ) ∧ ∀ ρ, C ρ → v ρ = n then some h.choose else none

/-- metadata.py:53-65 `find`: the metadata keys that are an argument, one per match. -/
noncomputable def matching (keys : List (Exp × Size)) (args : List Exp) : List (Exp × Size) :=
  args.flatMap fun a => keys.filter fun k => a = k.1

/-- The result of base_index_offset; the offset in bytes (line 224 multiplies it by 8). -/
structure Bio where
  base : Exp
  index : Asg → Nat
  offset : Nat

/-- utils.py:221-224. `minus e n` is the expression claripy builds for `e - n`. -/
noncomputable def decompose (C : Asg → Prop) (minus : Exp → Nat → Exp) (args : List Exp) (base : Exp) (size : Size) : Option Bio := do
  let added := Exp.add (args.filter (fun a => decide (a ≠ base)) ++ [.bvv 64 0])
  let m ← moduloSimplify C added size
  let offset ← evalOne C m
  let index ← divSimplify C (minus added offset) size
  some ⟨base, index, offset⟩

/-- utils.py:195-233 `base_index_offset` on the simplified address. The search for concrete bases
(lines 201-215, only for JITed BPF code) is not modelled: it counts as a failure. The sum of line
221 is one n-ary addition. -/
noncomputable def baseIndexOffset (C : Asg → Prop) (minus : Exp → Nat → Exp) (keys : List (Exp × Size)) (addr : Exp) : Option Bio :=
  match addr with
  | .add args =>
    match matching keys args with
    | [(base, size)] => decompose C minus args base size
    | _ => none
  | addr => if (keys.any fun k => decide (k.1 = addr)) then some ⟨addr, fun _ => 0, 0⟩ else none

/-! ### simplify -/

/-- The claripy operations `simplify` relies on. -/
structure Claripy where
  /-- `.ite_excavated` -/
  excavate : Exp → Exp
  /-- `.ite_burrowed` -/
  burrow : Exp → Exp
  /-- `state.solver.simplify` -/
  simp : Exp → Exp
  /-- `claripy.If` -/
  mkIf : Nat → Exp → Exp → Exp
  /-- `+` -/
  mkAdd : Exp → Exp → Exp

/-- A path condition: conditions with their polarity (the argument `cond`). -/
abbrev Path := List (Nat × Bool)

def holds (ρ : Asg) (p : Path) : Prop := ∀ cb ∈ p, ρ.cond cb.1 = cb.2

/-- utils.py:47-53 `get_if_constant` on `cond & c`. -/
noncomputable def constantCond (C : Asg → Prop) (p : Path) (c : Nat) : Option Bool :=
  if ∀ ρ, C ρ → holds ρ p ∧ ρ.cond c = true then some true
  else if ∀ ρ, C ρ → ¬(holds ρ p ∧ ρ.cond c = true) then some false
  else none

/-- utils.py:145-150 `force_burrow_ite`. -/
def forceBurrow (K : Claripy) : Exp → Exp
  | .ite c a b => K.burrow (K.mkIf c (forceBurrow K a) (forceBurrow K b))
  | e => e

/-- `sum(args, start)` -/
def sumFrom (K : Claripy) (start : Exp) (args : List Exp) : Exp := args.foldl K.mkAdd start

/-- utils.py:173-183: one addend `x` in front of a conditional of the remaining ones. -/
def pulled (K : Claripy) (c w : Nat) (x : Exp) (as bs : List Exp) : Exp :=
  K.mkAdd x (K.mkIf c (sumFrom K (.bvv w 0) as) (sumFrom K (.bvv w 0) bs))

/-- utils.py:168-183: factors out a common first or last addend. -/
noncomputable def factor (K : Claripy) (v : Exp) : Exp :=
  match v with
  | .ite c (.add as) (.add bs) =>
    match as.head?, bs.head?, as.getLast?, bs.getLast? with
    | some a0, some b0, some an, some bn =>
      if a0 = b0 then pulled K c (width v) a0 as.tail bs.tail
      else if a0 = bn then pulled K c (width v) a0 as.tail bs.dropLast
      else if an = b0 then pulled K c (width v) an as.dropLast bs.tail
      else if an = bn then pulled K c (width v) an as.dropLast bs.dropLast
      else v
    | _, _, _, _ => v
  | v => v

mutual
/-- utils.py:144-187 `simplify`; the natural number bounds the recursion (none: not finished). -/
noncomputable def simplify (K : Claripy) (C : Asg → Prop) : Nat → Exp → Path → Option Exp
  | 0, _, _ => none
  | n + 1, e, p =>
    match e with
    | .add args => (args.mapM fun a => simplify K C n a p).map (sumFrom K (.bvv (widthHead args) 0))
    | e => (simplifyLoop K C n (K.excavate e) p).map fun v => K.simp (forceBurrow K v)
/-- utils.py:159-185, the loop. -/
noncomputable def simplifyLoop (K : Claripy) (C : Asg → Prop) : Nat → Exp → Path → Option Exp
  | 0, _, _ => none
  | n + 1, v, p =>
    match v with
    | .ite c a b =>
      match constantCond C p c with
      | some true => simplifyLoop K C n (K.excavate a) p
      | some false => simplifyLoop K C n (K.excavate b) p
      | none =>
        (simplify K C n a ((c, true) :: p)).bind fun a' =>
          (simplify K C n b ((c, false) :: p)).map fun b' => factor K (K.mkIf c a' b')
    | v => some v
end

end outer

end Verif.Tool.Expr
