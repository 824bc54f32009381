/-
Contract of the index pool, transcribed from /repo/env/include/structs/index_pool.h
lines 12-69. Independent of the implementation model: it only talks about the
abstract map from borrowed index to last-use time.
-/
import Verif.Spec.GhostMap

namespace Verif.IndexPoolSpec

/-- Reserved time value (`TIME_MAX`, UINT64_MAX). -/
def timeMax : Nat := 18446744073709551615

/-- index_pool.h:13 `pool_young`. -/
def young (time exp v : Nat) : Bool := decide (time < exp) || decide (time - exp ≤ v)

/-- Calls, with their documented preconditions. -/
inductive Call where
  | borrow (time : Nat)
  | refresh (time index : Nat)
  | used (time index : Nat)
  | giveBack (index : Nat)

inductive Answer where
  | borrowed (index : Nat) (wasUsed : Bool)
  | notBorrowed
  | bool (b : Bool)
  | unit

/-- index_pool.h: the `requires` clauses. -/
def Pre (size : Nat) : Call → Prop
  | .borrow t => t < timeMax
  | .refresh t i => t < timeMax ∧ i < size
  | .used _ _ => True
  | .giveBack i => i < size

/-- index_pool.h: the `ensures` clauses, as a relation between the items before,
the call, its answer and the items afterwards. -/
def Post (size exp : Nat) (items : GMap Nat Nat) : Call → Answer → GMap Nat Nat → Prop
  | .borrow t, .borrowed i u, items' =>
      -- result == true
      (items.length = size → items.forallB (fun _ v => young t exp v) = false ∧ u = true) ∧
      items' = items.set i t ∧ i < size ∧
      (if u then ∃ old, items.get i = some old ∧ young t exp old = false
       else items.get i = none)
  | .borrow t, .notBorrowed, items' =>
      -- result == false
      items.length = size ∧ items.forallB (fun _ v => young t exp v) = true ∧ items' = items
  | .refresh t i, .unit, items' => items' = items.set i t
  | .used t i, .bool b, items' =>
      items' = items ∧ b = (match items.get i with
        | none => false
        | some v => young t exp v)
  | .giveBack i, .unit, items' => items' = items.remove i
  | _, _, _ => False

/-- A whole history of calls and answers that respects the contract. -/
inductive Run (size exp : Nat) : GMap Nat Nat → List (Call × Answer) → GMap Nat Nat → Prop
  | nil (items) : Run size exp items [] items
  | cons {items items' items'' c a tr} :
      Post size exp items c a items' → Run size exp items' tr items'' →
      Run size exp items ((c, a) :: tr) items''

end Verif.IndexPoolSpec
