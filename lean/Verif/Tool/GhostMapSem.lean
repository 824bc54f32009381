/-
What a ghost map stands for, independently of how reads and writes of it are computed.

A world gives every map object its contents before any update seen by the verifier: for every key a value
and whether it is present (the value of an absent key is arbitrary). The layers of updates of a map then
determine the contents of each of its versions. A state describes a world under an assignment of the
symbols when everything recorded in it is true of that world; this is what "the concrete maps a state
stands for" means in the properties of /repo/tool/klint/ghostmaps.py.
-/
import Verif.Tool.GhostMap
import Mathlib.Data.Finset.Card

set_option autoImplicit false

namespace Verif.Tool.GhostMap

/-- The contents of one version of one map. -/
abbrev Contents := Nat → Nat × Bool

/-- Two assignments give the first `n` symbols the same values. -/
def Agree (n : Nat) (ρ ρ' : Env) : Prop := ∀ i < n, ρ.bv i = ρ'.bv i ∧ ρ.bl i = ρ'.bl i

mutual
/-- Only the first `n` symbols occur. -/
def E.within (n : Nat) : E → Prop
  | .const _ => True
  | .var i => i < n
  | .op1 _ a => a.within n
  | .op2 _ a b => a.within n ∧ b.within n
  | .ite c t e => c.within n ∧ t.within n ∧ e.within n
def B.within (n : Nat) : B → Prop
  | .lit _ => True
  | .var i => i < n
  | .not a => a.within n
  | .and a b => a.within n ∧ b.within n
  | .or a b => a.within n ∧ b.within n
  | .iff a b => a.within n ∧ b.within n
  | .ite c t e => c.within n ∧ t.within n ∧ e.within n
  | .rel _ a b => a.within n ∧ b.within n
end

def Item.within (n : Nat) (i : Item) : Prop := i.key.within n ∧ i.value.within n ∧ i.present.within n

mutual
/-- The meaning of an invariant for an item (k, v, p), where `M obj ver` are the contents of a version
of a map. -/
def IE.sem (M : Nat → Option Nat → Contents) (ρ : Env) (k v : Nat) (p : Bool) : IE → Nat
  | .key => k
  | .value => v
  | .lift e => e.den ρ
  | .op1 f a => f (a.sem M ρ k v p)
  | .op2 f a b => f (a.sem M ρ k v p) (b.sem M ρ k v p)
  | .ite c t e => if c.sem M ρ k v p then t.sem M ρ k v p else e.sem M ρ k v p
  | .mapGet obj a ver => (M obj ver (a.sem M ρ k v p)).1
def IB.sem (M : Nat → Option Nat → Contents) (ρ : Env) (k v : Nat) (p : Bool) : IB → Bool
  | .present => p
  | .lift b => b.den ρ
  | .not a => !a.sem M ρ k v p
  | .and a b => a.sem M ρ k v p && b.sem M ρ k v p
  | .or a b => a.sem M ρ k v p || b.sem M ρ k v p
  | .iff a b => a.sem M ρ k v p == b.sem M ρ k v p
  | .rel r a b => r (a.sem M ρ k v p) (b.sem M ρ k v p)
  | .mapHas obj a ver => (M obj ver (a.sem M ρ k v p)).2
  | .mapHasValue obj a b ver => (M obj ver (a.sem M ρ k v p)).2 && (M obj ver (a.sem M ρ k v p)).1 == b.sem M ρ k v p
end

mutual
/-- The invariant reads no map, and only the first `n` symbols occur in it. -/
def IE.pure (n : Nat) : IE → Prop
  | .key => True
  | .value => True
  | .lift e => e.within n
  | .op1 _ a => a.pure n
  | .op2 _ a b => a.pure n ∧ b.pure n
  | .ite c t e => c.pure n ∧ t.pure n ∧ e.pure n
  | .mapGet .. => False
def IB.pure (n : Nat) : IB → Prop
  | .present => True
  | .lift b => b.within n
  | .not a => a.pure n
  | .and a b => a.pure n ∧ b.pure n
  | .or a b => a.pure n ∧ b.pure n
  | .iff a b => a.pure n ∧ b.pure n
  | .rel _ a b => a.pure n ∧ b.pure n
  | .mapHas .. => False
  | .mapHasValue .. => False
end

/-- No map is read: used as the map argument of `sem` for pure invariants. -/
def noMaps : Nat → Option Nat → Contents := fun _ _ _ => (0, false)

/-- The contents after a layer of updates: the first item for a key counts. -/
def override (ρ : Env) (items : List Item) (f : Contents) : Contents := fun k =>
  match items.find? fun i => i.key.den ρ == k with
  | some i => (i.value.den ρ, i.present.den ρ)
  | none => f k

/-- The contents of a version, given the contents of the base. -/
def content (ρ : Env) (w : Contents) : List Layer → Contents
  | [] => w
  | l :: ls => override ρ l.items (content ρ w ls)

/-- An item is right about the contents. -/
def Item.ok (ρ : Env) (f : Contents) (i : Item) : Prop := f (i.key.den ρ) = (i.value.den ρ, i.present.den ρ)

/-- No layer has an item for the key. -/
def Untouched (ρ : Env) (ls : List Layer) (k : Nat) : Prop := ∀ l ∈ ls, ∀ i ∈ l.items, i.key.den ρ ≠ k

/-- The recorded items of the base are right, as far as the given layers do not replace them. -/
def BaseOk (ρ : Env) (w : Contents) (base : List Item) (ls : List Layer) : Prop :=
  ∀ i ∈ base, Untouched ρ ls (i.key.den ρ) → i.ok ρ w

/-- The length of a version is the number of present keys, which fits 64 bits. -/
def LenOk (ρ : Env) (f : Contents) (e : E) : Prop :=
  ∃ S : Finset Nat, (∀ k, k ∈ S ↔ (f k).2 = true) ∧ e.den ρ = S.card ∧ S.card < 2 ^ 64

/-- The items of a version, without caches. -/
noncomputable def items (base : List Item) : List Layer → List Item
  | [] => base
  | l :: ls => l.items ++ transform l.items (items base ls)

/-- Every cache holds the translation of a prefix of the previous version's items. -/
def CacheOk (base : List Item) : List Layer → Prop
  | [] => True
  | l :: ls => l.cache.1 ≤ (items base ls).length ∧ l.cache.2 = transform l.items ((items base ls).take l.cache.1) ∧ CacheOk base ls

/-- Only the first `n` symbols occur in the map. -/
structure MapBelow (n : Nat) (m : MapS) : Prop where
  base : ∀ i ∈ m.base, i.within n
  length : m.baseLength.within n
  unknown : m.unknown.within n
  layers : ∀ l ∈ m.layers, l.length.within n ∧ ∀ i ∈ l.items, i.within n
  invs : ∀ inv ∈ m.invs, inv.pure n

/-- A map is right about the world `w` under the assignment `ρ`. -/
structure MapOk (n : Nat) (ρ : Env) (w : Contents) (m : MapS) : Prop where
  within : MapBelow n m
  caches : CacheOk m.base m.layers
  distinct : ∀ l ∈ m.layers, ∀ i ∈ l.items, ∀ j ∈ l.items, i.key.den ρ = j.key.den ρ → i = j
  base : BaseOk ρ w m.base m.layers
  unknownKey : Untouched ρ m.layers (m.unknown.key.den ρ)
  unknown : m.unknown.ok ρ w
  touched : ∀ l ∈ m.layers, ∀ i ∈ l.items, (∃ b ∈ m.base, b.key.den ρ = i.key.den ρ) ∨ (w (i.key.den ρ)).2 = false
  invs : ∀ inv ∈ m.invs, ∀ k, (∀ b ∈ m.base, b.key.den ρ ≠ k) → inv.sem noMaps ρ k (w k).1 (w k).2 = true
  length : ∀ d, LenOk ρ (content ρ w (m.layers.drop d)) (lengthOf m (m.layers.drop d))

/-- A state describes the world `W` under the assignment `ρ`. -/
structure Describes (st : State) (W : Nat → Contents) (ρ : Env) : Prop where
  sat : sat st.constraints ρ
  within : ∀ c ∈ st.constraints, c.within st.next
  maps : ∀ obj, MapOk st.next ρ (W obj) (st.maps obj)

/-- The contents of a version of a map, in a world. -/
def State.contentAt (st : State) (W : Nat → Contents) (ρ : Env) (obj : Nat) (ver : Option Nat) : Contents :=
  content ρ (W obj) ((st.maps obj).layers.drop (skip (st.maps obj) ver))

end Verif.Tool.GhostMap
