/-
Model of `structural_eq` and `structural_diff`, /repo/tool/kalm/utils.py:110-142, and of
/repo/tool/kalm/plugins/metadata.py:22-24 (merge).
-/
import Mathlib.Data.List.Dedup

set_option autoImplicit false

namespace Verif.Tool.Structural

/-- Keys of dictionaries: strings (field names) or other hashable objects (classes, cache keys). -/
inductive Key where
  | name (s : List Char)
  | obj (n : Nat)
  deriving DecidableEq

/-- The Python values compared: None, claripy expressions, named tuples (their `_asdict`),
dictionaries, strings, numbers, and lists or plain tuples. -/
inductive Val (E : Type) where
  | none
  | expr (e : E)
  | record (fields : List (Key × Val E))
  | dict (items : List (Key × Val E))
  | str (s : List Char)
  | num (n : Int)
  | list (l : List (Val E))

/-- A key as a value. -/
def Key.val {E : Type} : Key → Val E
  | .name s => .str s
  | .obj n => .num n

/-- What Python's iteration over a value yields; none if it has no `__iter__`/`__len__`: the values
of a tuple, the keys of a dictionary, the characters of a string. -/
def elements {E : Type} : Val E → Option (List (Val E))
  | .record fs => some (fs.map (·.2))
  | .dict kvs => some (kvs.map fun kv => kv.1.val)
  | .str s => some (s.map fun c => .str [c])
  | .list l => some l
  | _ => none

/-- Dictionary lookup. -/
def lookup {E : Type} (k : Key) (kvs : List (Key × Val E)) : Option (Val E) :=
  (kvs.find? fun kv => kv.1 == k).map (·.2)

/-- utils.py:122, for dictionaries, with `eq` comparing the values. -/
def dictEq {E : Type} (eq : Val E → Val E → Bool) (f g : List (Key × Val E)) : Bool :=
  (f.map (·.1) ++ g.map (·.1)).all fun k =>
    match lookup k f, lookup k g with
    | some x, some y => eq x y
    | _, _ => false

/-- utils.py:125-127, for values of which none of the earlier cases applied. -/
def iterEq {E : Type} (eq : Val E → Val E → Bool) (a b : Val E) : Bool :=
  match elements a, elements b with
  | some xs, some ys => xs.length == ys.length && (xs.zip ys).all fun p => eq p.1 p.2
  | _, _ => false

/-- utils.py:110-127 `structural_eq` with at most `n` nested calls. `structurally_match` is
equality of expressions. Comparing an expression with something else, which in Python is an
exception or an expression, is false here. -/
def eqFuel {E : Type} [DecidableEq E] : Nat → Val E → Val E → Bool
  | 0, _, _ => false
  | n + 1, a, b =>
    match a, b with
    | .none, .none => true
    | .none, _ => false
    | _, .none => false
    | .expr x, .expr y => x == y
    | .record f, .record g => dictEq (eqFuel n) f g
    | .dict f, .dict g => dictEq (eqFuel n) f g
    | .str s, .str t => s == t
    | .num x, .num y => x == y
    | a, b => iterEq (eqFuel n) a b

mutual
/-- A bound on the nesting of a value. -/
def Val.size {E : Type} : Val E → Nat
  | .none => 1
  | .expr _ => 1
  | .record fs => 1 + sizeItems fs
  | .dict kvs => 1 + sizeItems kvs
  | .str _ => 1
  | .num _ => 1
  | .list l => 1 + sizeList l
def sizeList {E : Type} : List (Val E) → Nat
  | [] => 0
  | v :: l => v.size + sizeList l
def sizeItems {E : Type} : List (Key × Val E) → Nat
  | [] => 0
  | (_, v) :: l => 1 + v.size + sizeItems l
end

/-- utils.py:110-127 `structural_eq`: enough calls for every nesting (`structEq_unfold` in
Props/Structural.lean shows that it meets the recursive definition). -/
def structEq {E : Type} [DecidableEq E] (a b : Val E) : Bool := eqFuel (a.size + b.size) a b

section diff
open Classical

/-- utils.py:134-141: the loop over `left`; `found` are the keys set to True in `right_found`. -/
noncomputable def diffLoop {T : Type} (eq : T → T → Bool) (right : List T) : List T → List T × List T × List T
  | [] => ([], [], [])
  | item :: left =>
    let (onlyLeft, both, found) := diffLoop eq right left
    if right.any (eq item) then (onlyLeft, item :: both, item :: found) else (item :: onlyLeft, both, found)

/-- utils.py:130-142 `structural_diff`. The dictionary `right_found` is keyed by Python's own
equality (here `=`); keys added by line 138 are True and do not reach the result. -/
noncomputable def structDiff {T : Type} (eq : T → T → Bool) (left right : List T) : List T × List T × List T :=
  let (onlyLeft, both, found) := diffLoop eq right left
  (onlyLeft, both, right.dedup.filter fun r => decide (r ∉ found))

end diff

/-- metadata.py:22-24 `MetadataPlugin.merge`: whether the plugins merge (keeping `self`'s). -/
def metadataMerge {E : Type} [DecidableEq E] (self : Val E) (others : List (Val E)) : Bool :=
  others.all fun o => structEq o self

end Verif.Tool.Structural
