/-
Independent specification of an expiring set with a capacity, as the network
functions' specs use it (/repo/tool/klint/verif/spec_utils.py `ExpiringSet`): a
finite map from member to the time it was last used.
-/
import Verif.Spec.GhostMap

set_option autoImplicit false

namespace Verif.Expiring

variable {K : Type} [DecidableEq K]

/-- A member last used at `v` has not expired at time `now`. -/
def fresh (exp now v : Nat) : Bool := decide (now ≤ v + exp)

/-- The members that have not expired at time `now`. -/
def live (exp now : Nat) (s : GMap K Nat) : GMap K Nat := s.filter fun x => fresh exp now x.2

/-- Membership at time `now`. -/
def mem (exp now : Nat) (s : GMap K Nat) (k : K) : Bool := ((live exp now s).get k).isSome

/-- Use of a member at time `now`. -/
def touch (exp now : Nat) (s : GMap K Nat) (k : K) : GMap K Nat := (live exp now s).set k now

/-- Adding `k` at time `now`: refreshes a member; adds a new one if there is room. -/
def learn (size exp now : Nat) (s : GMap K Nat) (k : K) : GMap K Nat :=
  if mem exp now s k ∨ (live exp now s).length < size then touch exp now s k else live exp now s

end Verif.Expiring
