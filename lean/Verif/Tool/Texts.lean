set_option autoImplicit false

/-!
How the tool reads a text out of the memory of the program it executes, and how it writes a
condition of a path as the text of a label (tool/kalm/utils.py).
-/

namespace Verif.Texts

/-! ## Reading a text -/

/-- What loading one byte gives: `symbolic` when the expression contains a symbol, otherwise the
byte `state.solver.eval_one` returns for it (tool/kalm/utils.py:16-19).
Simplification: the memory is total, i.e. loading outside of every object is not modelled here. -/
inductive Byte
  | symbolic
  | concrete (value : BitVec 8)
  deriving DecidableEq, Repr

/-- How a call of `read_str` ends within the given number of turns of its loop: with a text, with
"Trying to read a symbolic string!", or not yet. -/
inductive Read
  | text (s : List Char)
  | raised
  | running
  deriving DecidableEq, Repr

/-- The loop of `read_str` (tool/kalm/utils.py:13-24); `acc` is `result`, `turns` bounds how many
times the loop is entered (Python's has no bound), `ptr + 1` is an addition of 64-bit expressions.
Simplification: the pointer is a known number. -/
def readLoop (mem : BitVec 64 → Byte) : Nat → BitVec 64 → List Char → Read
  | 0, _, _ => .running
  | turns + 1, ptr, acc =>
    match mem ptr with
    | .symbolic => .raised
    | .concrete b =>
      if b = 0 then .text acc
      else readLoop mem turns (ptr + 1) (acc ++ [Char.ofNat b.toNat])

/-- `read_str` (tool/kalm/utils.py:13-24) watched for `turns` turns of its loop. -/
def readStr (mem : BitVec 64 → Byte) (turns : Nat) (ptr : BitVec 64) : Read :=
  readLoop mem turns ptr []

/-! ## Writing a condition -/

/-- A condition as `pretty_print` tells them apart (tool/kalm/utils.py:56-70): by `expr.op`. Every
other operation is kept as the text `str(expr)` gives, which claripy makes. -/
inductive Cond
  | boolS (name : List Char)
  | not (c : Cond)
  | and (cs : List Cond)
  | or (cs : List Cond)
  | other (text : List Char)

/-- The name of a symbol without the `_-1` that claripy adds (tool/kalm/utils.py:58-60). -/
def symbolText (name : List Char) : List Char :=
  if "_-1".toList <:+ name then name.take (name.length - 3) else name

/-- The text of any other expression: `result[6:-1]` if it starts with `<Bool`
(tool/kalm/utils.py:67-70). -/
def otherText (text : List Char) : List Char :=
  if "<Bool".toList <+: text then text.dropLast.drop 6 else text

/-- Parentheses around a text if it is `nested` (tool/kalm/utils.py:66). -/
def paren (nested : Bool) (s : List Char) : List Char :=
  (if nested then ['('] else []) ++ s ++ (if nested then [')'] else [])

mutual
/-- `pretty_print` (tool/kalm/utils.py:56-70). -/
def pretty : Cond → Bool → List Char
  | .boolS name, _ => symbolText name
  | .not c, _ => '!' :: pretty c true
  | .and cs, nested => paren nested (" && ".toList.intercalate (prettyAll cs))
  | .or cs, nested => paren nested (" || ".toList.intercalate (prettyAll cs))
  | .other text, _ => otherText text

/-- `pretty_print(a, nested=True) for a in expr.args` (tool/kalm/utils.py:66). -/
def prettyAll : List Cond → List (List Char)
  | [] => []
  | c :: cs => pretty c true :: prettyAll cs
end

end Verif.Texts
