/-
The contract of /repo/env/include/structs/lpm.h. The repository contains no
implementation of it; `search` below is any function meeting the contract.
Keys are the 32-bit values the router passes; `matches` is as in
/repo/nf/router/spec.py:9-11.
-/
import Verif.Base

set_option autoImplicit false

namespace Verif.LpmSpec

structure Route where
  dest : Nat
  length : Nat
  device : Nat
deriving DecidableEq, Repr

abbrev Table := List Route

/-- The first `length` of the 32 bits are equal. -/
def matchesIp (r : Route) (ip : Nat) : Prop := r.dest / 2 ^ (32 - r.length) = ip / 2 ^ (32 - r.length)

instance (r : Route) (ip : Nat) : Decidable (matchesIp r ip) := inferInstanceAs (Decidable (_ = _))

/-- A route for `ip` that no longer one beats. -/
def best (t : Table) (ip : Nat) (r : Route) : Prop :=
  r ∈ t ∧ matchesIp r ip ∧ ∀ r' ∈ t, matchesIp r' ip → r'.length ≤ r.length

/-- lpm.h:22-25: what lpm_search may answer. -/
def IsSearch (search : Table → Nat → Option Nat) : Prop :=
  ∀ t ip, match search t ip with
    | none => ∀ r ∈ t, ¬ matchesIp r ip
    | some d => ∃ r, best t ip r ∧ r.device = d

/-- lpm.h:15-20: lpm_set may be called with a new key and width, at most 32. -/
def setPre (t : Table) (key width : Nat) : Prop := width ≤ 32 ∧ ∀ r ∈ t, ¬ (r.dest = key ∧ r.length = width)

instance (t : Table) (key width : Nat) : Decidable (setPre t key width) := inferInstanceAs (Decidable (_ ∧ _))

/-- lpm_set, when allowed: stores the route iff there is space. -/
def set (cap : Nat) (t : Table) (key width value : Nat) : Table :=
  if t.length < cap then ⟨key, width, value⟩ :: t else t

end Verif.LpmSpec
