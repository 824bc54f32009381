/-
Contract of the hash map, transcribed from /repo/env/include/structs/map.h lines
12-66. Independent of the implementation model: the map is two finite maps, from
key bytes to value and from key bytes to the address of the key.
-/
import Verif.Spec.GhostMap

namespace Verif.HashMapSpec

abbrev Key := List UInt8

/-- Memory and abstract contents. -/
structure State where
  mem : Nat → UInt8
  values : GMap Key Nat
  addrs : GMap Key Nat

/-- The key a pointer designates. -/
def keyAt (ks : Nat) (s : State) (p : Nat) : Key := (List.range ks).map fun i => s.mem (p + i)

inductive Call where
  | get (p : Nat)
  | set (p v : Nat)
  | remove (p : Nat)
  | write (a : Nat) (v : UInt8)

/-- map.h: the `requires` clauses. The map holds a share of the ownership of every
key it contains, so the program may not overwrite their bytes. -/
def Pre (ks capacity : Nat) (s : State) : Call → Prop
  | .get p => p ≠ 0
  | .set p _ => p ≠ 0 ∧ s.values.length < capacity ∧ s.values.get (keyAt ks s p) = none
      ∧ s.addrs.get (keyAt ks s p) = none
  | .remove p => p ≠ 0 ∧ s.values.get (keyAt ks s p) ≠ none ∧ s.addrs.get (keyAt ks s p) = some p
  | .write a _ => ∀ k p, s.addrs.get k = some p → a < p ∨ p + ks ≤ a

/-- map.h: the `ensures` clauses, state part. -/
def next (ks : Nat) (s : State) : Call → State
  | .get _ => s
  | .set p v => { s with values := s.values.set (keyAt ks s p) v, addrs := s.addrs.set (keyAt ks s p) p }
  | .remove p => { s with values := s.values.remove (keyAt ks s p), addrs := s.addrs.remove (keyAt ks s p) }
  | .write a v => { s with mem := fun x => if x = a then v else s.mem x }

/-- map.h: the `ensures` clauses, what `map_get` returns (`none` = false). -/
def answer (ks : Nat) (s : State) : Call → Option (Option Nat)
  | .get p => some (s.values.get (keyAt ks s p))
  | _ => none

/-- Every call of the sequence meets its precondition when it is made. -/
def Legal (ks capacity : Nat) : State → List Call → Prop
  | _, [] => True
  | s, c :: cs => Pre ks capacity s c ∧ Legal ks capacity (next ks s c) cs

/-- The answers the contract prescribes. -/
def answers (ks : Nat) : State → List Call → List (Option (Option Nat))
  | _, [] => []
  | s, c :: cs => answer ks s c :: answers ks (next ks s c) cs

/-- The abstract state after a sequence. -/
def final (ks : Nat) : State → List Call → State
  | s, [] => s
  | s, c :: cs => final ks (next ks s c) cs

end Verif.HashMapSpec
