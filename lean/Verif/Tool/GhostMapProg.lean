/-
Client code of ghost maps, as the verifier runs it: a program reads and updates maps through
/repo/tool/klint/ghostmaps.py:510-517 and may use the expressions it got back in later operations and in
branch conditions. Next to it, the same program on ordinary finite maps, which is the specification.
-/
import Verif.Tool.GhostMapSem
import Mathlib.Data.Set.Card

set_option autoImplicit false

namespace Verif.Tool.GhostMap

/-- A program over maps. -/
inductive Prog where
  | done
  | get (obj : Nat) (key : E) (k : E → B → Prog)
  | length (obj : Nat) (k : E → Prog)
  | set (obj : Nat) (key value : E) (k : Prog)
  | remove (obj : Nat) (key : E) (k : Prog)
  | assume (c : B) (k : Prog)

/-- The verifier's run of a program. -/
noncomputable def Prog.run (fuel : Nat) : State → Prog → Option State
  | st, .done => some st
  | st, .get obj key k =>
    match GhostMap.get fuel st obj none key none (.lit true) with
    | none => none
    | some (r, st) => Prog.run fuel st (k r.1 r.2)
  | st, .length obj k => Prog.run fuel st (k (lengthOf (st.maps obj) (st.maps obj).layers))
  | st, .set obj key value k =>
    match GhostMap.set fuel st obj key value with
    | none => none
    | some st => Prog.run fuel st k
  | st, .remove obj key k =>
    match GhostMap.remove fuel st obj key with
    | none => none
    | some st => Prog.run fuel st k
  | st, .assume c k => Prog.run fuel (st.add [c]) k

/-- Ordinary maps. -/
abbrev Maps := Nat → Nat → Option Nat

/-- The maps with one key changed. -/
def Maps.put (M : Maps) (obj k : Nat) (v : Option Nat) : Maps := fun o j => if o = obj ∧ j = k then v else M o j

/-- The verifier's run says the same as a run on ordinary maps, under an assignment: every read returns
what the map has, every length is the number of keys, and every assumed condition holds. -/
def Prog.Faithful (fuel : Nat) (ρ : Env) : Maps → State → Prog → Prop
  | _, _, .done => True
  | M, st, .get obj key k =>
    match GhostMap.get fuel st obj none key none (.lit true) with
    | none => False
    | some (r, st) => (if r.2.den ρ then some (r.1.den ρ) else none) = M obj (key.den ρ) ∧ Prog.Faithful fuel ρ M st (k r.1 r.2)
  | M, st, .length obj k =>
    (lengthOf (st.maps obj) (st.maps obj).layers).den ρ = {j | (M obj j).isSome}.ncard ∧
      Prog.Faithful fuel ρ M st (k (lengthOf (st.maps obj) (st.maps obj).layers))
  | M, st, .set obj key value k =>
    match GhostMap.set fuel st obj key value with
    | none => False
    | some st => Prog.Faithful fuel ρ (M.put obj (key.den ρ) (some (value.den ρ))) st k
  | M, st, .remove obj key k =>
    match GhostMap.remove fuel st obj key with
    | none => False
    | some st => Prog.Faithful fuel ρ (M.put obj (key.den ρ) none) st k
  | M, st, .assume c k => c.den ρ = true ∧ Prog.Faithful fuel ρ M (st.add [c]) k

/-- The current contents of all maps, as ordinary maps. -/
def State.maps' (st : State) (W : Nat → Contents) (ρ : Env) : Maps := fun obj k =>
  if (st.contentAt W ρ obj none k).2 then some (st.contentAt W ρ obj none k).1 else none

/-- The number of present keys leaves room for one more. -/
def HasRoom (f : Contents) : Prop := ∀ S : Finset Nat, (∀ k, k ∈ S ↔ (f k).2 = true) → S.card + 1 < 2 ^ 64

/-- What a program must respect for its run to be faithful: it uses only symbols that exist, assumes only
what is true, and updates no key that is the unknown item's and none that is flattened into the newest
layer. The conditions are required of every assignment that describes the world after each operation. -/
def Prog.Clean (fuel : Nat) (W : Nat → Contents) : State → Env → Prog → Prop
  | _, _, .done => True
  | st, ρ, .get obj key k =>
    key.within st.next ∧ ∀ r st' ρ', GhostMap.get fuel st obj none key none (.lit true) = some (r, st') → Agree st.next ρ ρ' →
      Describes st' W ρ' → Prog.Clean fuel W st' ρ' (k r.1 r.2)
  | st, ρ, .length obj k => Prog.Clean fuel W st ρ (k (lengthOf (st.maps obj) (st.maps obj).layers))
  | st, ρ, .set obj key value k =>
    key.within st.next ∧ value.within st.next ∧ key.den ρ ≠ (st.maps obj).unknown.key.den ρ ∧ flattens (st.maps obj).layers key = false ∧
      HasRoom (st.contentAt W ρ obj none) ∧ ∀ st' ρ', GhostMap.set fuel st obj key value = some st' → Agree st.next ρ ρ' →
        Describes st' W ρ' → Prog.Clean fuel W st' ρ' k
  | st, ρ, .remove obj key k =>
    key.within st.next ∧ key.den ρ ≠ (st.maps obj).unknown.key.den ρ ∧ flattens (st.maps obj).layers key = false ∧
      ∀ st' ρ', GhostMap.remove fuel st obj key = some st' → Agree st.next ρ ρ' → Describes st' W ρ' → Prog.Clean fuel W st' ρ' k
  | st, ρ, .assume c k => c.within st.next ∧ c.den ρ = true ∧ Prog.Clean fuel W (st.add [c]) ρ k

end Verif.Tool.GhostMap
