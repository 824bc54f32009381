/-
What a ghost map with invariants that read other maps stands for. Independent of how reads and writes are computed, like
Tool/GhostMapSem, which it extends: there, invariants read no map.

Of the maps, some are only read: their invariants read no map and they have not been updated. The invariants of the others may
read them, as those that klint infers do (/repo/tool/klint/ghostmaps.py:826-850), with expected values only in what the
invariant says of every present item, and only while the map has not been updated (see `C19_hint_lost` and
`C19_hint_updated_lost`).
-/
import Verif.Tool.GhostMapProg

set_option autoImplicit false

namespace Verif.Tool.GhostMap

mutual
/-- The invariant reads only maps in `L`, without expected values, and only the first `n` symbols occur in it. -/
def IE.reads (n : Nat) (L : Nat → Bool) : IE → Prop
  | .key => True
  | .value => True
  | .lift e => e.within n
  | .op1 _ a => a.reads n L
  | .op2 _ a b => a.reads n L ∧ b.reads n L
  | .ite c t e => c.reads n L ∧ t.reads n L ∧ e.reads n L
  | .mapGet o k _ => L o = true ∧ k.reads n L
def IB.reads (n : Nat) (L : Nat → Bool) : IB → Prop
  | .present => True
  | .lift b => b.within n
  | .not a => a.reads n L
  | .and a b => a.reads n L ∧ b.reads n L
  | .or a b => a.reads n L ∧ b.reads n L
  | .iff a b => a.reads n L ∧ b.reads n L
  | .rel _ a b => a.reads n L ∧ b.reads n L
  | .mapHas o k _ => L o = true ∧ k.reads n L
  | .mapHasValue .. => False
end

/-- Other maps are read only for an item that is present, as in what `forall` (ghostmaps.py:256-257) and weakening (line 617)
make of a predicate. -/
inductive Guarded (n : Nat) (L : Nat → Bool) : IB → Prop
  | pure {a : IB} : a.pure n → Guarded n L a
  | present {a : IB} : a.reads n L → Guarded n L (iimplies .present a)
  | not {a : IB} : Guarded n L a → Guarded n L (.not a)
  | and {a b : IB} : Guarded n L a → Guarded n L b → Guarded n L (.and a b)
  | or {a b : IB} : Guarded n L a → Guarded n L b → Guarded n L (.or a b)
  | iff {a b : IB} : Guarded n L a → Guarded n L b → Guarded n L (.iff a b)

/-- What may be said of every present item: that the invariant holds, and that another map has a key with an expected value. -/
inductive Asserts (n : Nat) (L : Nat → Bool) : IB → Prop
  | reads {a : IB} : a.reads n L → Asserts n L a
  | hasValue {o : Nat} {k v : IE} {ver : Option Nat} : L o = true → k.reads n L → v.reads n L → Asserts n L (.mapHasValue o k v ver)
  | and {a b : IB} : Asserts n L a → Asserts n L b → Asserts n L (.and a b)

/-- The invariants considered. -/
inductive Claims (n : Nat) (L : Nat → Bool) : IB → Prop
  | guarded {a : IB} : Guarded n L a → Claims n L a
  | present {a : IB} : Asserts n L a → Claims n L (iimplies .present a)

/-- The state without the invariants of the maps that are not in `L`. -/
def State.plain (L : Nat → Bool) (st : State) : State :=
  { st with maps := fun o => if L o then st.maps o else { st.maps o with invs := [] } }

/-- A state describes the world `W` under the assignment `ρ`, where the maps in `L` are only read and the invariants of the others
may read them. -/
structure DescribesCross (L : Nat → Bool) (st : State) (W : Nat → Contents) (ρ : Env) : Prop where
  plain : Describes (st.plain L) W ρ
  claims : ∀ o, L o = false → ∀ inv ∈ (st.maps o).invs, Claims st.next L inv
  hinted : ∀ o, L o = false → (∀ inv ∈ (st.maps o).invs, Guarded st.next L inv) ∨
    ((st.maps o).layers = [] ∧ ∀ inv ∈ (st.maps o).invs, ∀ k, inv.sem (fun o' _ => W o') ρ k (W o k).1 (W o k).2 = true)
  invs : ∀ o, L o = false → ∀ inv ∈ (st.maps o).invs, ∀ k, (∀ b ∈ (st.maps o).base, b.key.den ρ ≠ k) →
    inv.sem (fun o' _ => W o') ρ k (W o k).1 (W o k).2 = true
  read : ∀ o, L o = true → (st.maps o).layers = []

/-- What a program must respect: as `Prog.Clean`, and it updates no map that is only read or whose invariants have expected values. -/
def Prog.CleanCross (L : Nat → Bool) (fuel : Nat) (W : Nat → Contents) : State → Env → Prog → Prop
  | _, _, .done => True
  | st, ρ, .get obj key k =>
    key.within st.next ∧ ∀ r st' ρ', GhostMap.get fuel st obj none key none (.lit true) = some (r, st') → Agree st.next ρ ρ' →
      DescribesCross L st' W ρ' → Prog.CleanCross L fuel W st' ρ' (k r.1 r.2)
  | st, ρ, .length obj k => Prog.CleanCross L fuel W st ρ (k (lengthOf (st.maps obj) (st.maps obj).layers))
  | st, ρ, .set obj key value k =>
    L obj = false ∧ (∀ inv ∈ (st.maps obj).invs, Guarded st.next L inv) ∧ key.within st.next ∧ value.within st.next ∧ key.den ρ ≠ (st.maps obj).unknown.key.den ρ ∧ flattens (st.maps obj).layers key = false ∧
      HasRoom (st.contentAt W ρ obj none) ∧ ∀ st' ρ', GhostMap.set fuel st obj key value = some st' → Agree st.next ρ ρ' →
        DescribesCross L st' W ρ' → Prog.CleanCross L fuel W st' ρ' k
  | st, ρ, .remove obj key k =>
    L obj = false ∧ (∀ inv ∈ (st.maps obj).invs, Guarded st.next L inv) ∧ key.within st.next ∧ key.den ρ ≠ (st.maps obj).unknown.key.den ρ ∧ flattens (st.maps obj).layers key = false ∧
      ∀ st' ρ', GhostMap.remove fuel st obj key = some st' → Agree st.next ρ ρ' → DescribesCross L st' W ρ' → Prog.CleanCross L fuel W st' ρ' k
  | st, ρ, .assume c k => c.within st.next ∧ c.den ρ = true ∧ Prog.CleanCross L fuel W (st.add [c]) ρ k

end Verif.Tool.GhostMap
