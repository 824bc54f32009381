/-
Model of ghost maps: /repo/tool/klint/ghostmaps.py:37-124 (invariants as expressions), 127-277 (Map.new,
get, set, remove, forall), 348-462 (versions, known items, layers, length) and
/repo/tool/kalm/utils.py:41-53, 72-85 (solver queries and matching).

Expressions are trees over named symbols; `structurally_match` is equality of trees (`E.same`). claripy simplifies
expressions when they are built, which does not change their meaning; of this the model has only that an
expression without symbols is its value. Values are
natural numbers: the width of keys and values is not modelled, nothing here depends on it; lengths are
computed modulo 2^64. The solver answers exactly.

The versions of a map share their base and lower layers, as the Python objects do: a map is its base and
the list of its layers, newest first, and an older version is what remains without the newest ones.

An exception, or too little fuel for nested reads, is `none`.
-/
set_option autoImplicit false

namespace Verif.Tool.GhostMap

/-- An assignment of the bit vector symbols and of the Boolean symbols. -/
structure Env where
  bv : Nat → Nat
  bl : Nat → Bool

mutual
/-- Bit vector expressions. -/
inductive E where
  | const (n : Nat)
  | var (i : Nat)
  | op1 (f : Nat → Nat) (a : E)
  | op2 (f : Nat → Nat → Nat) (a b : E)
  | ite (c : B) (t e : E)
/-- Boolean expressions. -/
inductive B where
  | lit (b : Bool)
  | var (i : Nat)
  | not (a : B)
  | and (a b : B)
  | or (a b : B)
  | iff (a b : B)
  | ite (c t e : B)
  | rel (r : Nat → Nat → Bool) (a b : E)
end

mutual
def E.den (ρ : Env) : E → Nat
  | .const n => n
  | .var i => ρ.bv i
  | .op1 f a => f (a.den ρ)
  | .op2 f a b => f (a.den ρ) (b.den ρ)
  | .ite c t e => if c.den ρ then t.den ρ else e.den ρ
def B.den (ρ : Env) : B → Bool
  | .lit b => b
  | .var i => ρ.bl i
  | .not a => !a.den ρ
  | .and a b => a.den ρ && b.den ρ
  | .or a b => a.den ρ || b.den ρ
  | .iff a b => a.den ρ == b.den ρ
  | .ite c t e => if c.den ρ then t.den ρ else e.den ρ
  | .rel r a b => r (a.den ρ) (b.den ρ)
end

mutual
/-- claripy `.symbolic`. -/
def E.symbolic : E → Bool
  | .const _ => false
  | .var _ => true
  | .op1 _ a => a.symbolic
  | .op2 _ a b => a.symbolic || b.symbolic
  | .ite c t e => c.symbolic || t.symbolic || e.symbolic
def B.symbolic : B → Bool
  | .lit _ => false
  | .var _ => true
  | .not a => a.symbolic
  | .and a b => a.symbolic || b.symbolic
  | .or a b => a.symbolic || b.symbolic
  | .iff a b => a.symbolic || b.symbolic
  | .ite c t e => c.symbolic || t.symbolic || e.symbolic
  | .rel _ a b => a.symbolic || b.symbolic
end

/-- Any assignment, to evaluate expressions without symbols. -/
def env0 : Env := ⟨fun _ => 0, fun _ => false⟩

open Classical in
/-- claripy `structurally_match`; expressions without symbols are constants. -/
noncomputable def E.same (a b : E) : Bool := decide (a = b) || (!a.symbolic && !b.symbolic && a.den env0 == b.den env0)

def E.eq (a b : E) : B := .rel (fun x y => x == y) a b
def E.le (a b : E) : B := .rel (fun x y => decide (x ≤ y)) a b
/-- 64-bit addition. -/
def E.add (a b : E) : E := .op2 (fun x y => (x + y) % 2 ^ 64) a b

/-- claripy `And(*l)`. -/
def andAll : List B → B
  | [] => .lit true
  | [b] => b
  | b :: bs => .and b (andAll bs)

/-- ghostmaps.py:38-39. -/
def implies (a b : B) : B := .or (.not a) b

/-- ghostmaps.py:42. -/
structure Item where
  key : E
  value : E
  present : B

mutual
/-- Expressions of an invariant: KEY, VALUE and PRESENT stand for the item; MapGet and MapHas read
another map, given by its object, at a version (none: the current one). ghostmaps.py:48-52, 94-102. -/
inductive IE where
  | key
  | value
  | lift (e : E)
  | op1 (f : Nat → Nat) (a : IE)
  | op2 (f : Nat → Nat → Nat) (a b : IE)
  | ite (c : IB) (t e : IE)
  | mapGet (obj : Nat) (k : IE) (ver : Option Nat)
inductive IB where
  | present
  | lift (b : B)
  | not (a : IB)
  | and (a b : IB)
  | or (a b : IB)
  | iff (a b : IB)
  | rel (r : Nat → Nat → Bool) (a b : IE)
  | mapHas (obj : Nat) (k : IE) (ver : Option Nat)
  | mapHasValue (obj : Nat) (k v : IE) (ver : Option Nat)
end

/-- ghostmaps.py:38-39, on invariants. -/
def iimplies (a b : IB) : IB := .or (.not a) b

/-- A layer of updates: ghostmaps.py:348-364 with `_previous` set. -/
structure Layer where
  items : List Item
  length : E
  cache : Nat × List Item

/-- A map with all its versions; `layers` is newest first. -/
structure MapS where
  invs : List IB
  base : List Item
  baseLength : E
  unknown : Item
  layers : List Layer

/-- A state: path constraints, the next unused symbol, and the maps by object. -/
structure State where
  constraints : List B
  next : Nat
  maps : Nat → MapS

def sat (cs : List B) (ρ : Env) : Prop := ∀ c ∈ cs, c.den ρ = true

open Classical in
/-- utils.py:41-42 `definitely_true`. -/
noncomputable def definitely (cs : List B) (b : B) : Bool := decide (∀ ρ, sat cs ρ → b.den ρ = true)

/-- ghostmaps.py:366-368 `version`. -/
def MapS.version (m : MapS) : Nat := m.layers.length

/-- ghostmaps.py:166-167, for the version with the given layers. -/
def lengthOf (m : MapS) : List Layer → E
  | [] => m.baseLength
  | l :: _ => l.length

/-- claripy `ite_cases`. -/
def iteE (cases : List (B × E)) (d : E) : E := cases.foldr (fun c e => .ite c.1 c.2 e) d
def iteB (cases : List (B × B)) (d : B) : B := cases.foldr (fun c e => .ite c.1 c.2 e) d

open Classical in
/-- ghostmaps.py:389-398 `transform_previous`. -/
noncomputable def transform (layer : List Item) (items : List Item) : List Item :=
  (items.filter fun i => layer.all fun ki => !i.key.same ki.key).map fun i =>
    ⟨i.key, iteE (layer.map fun ki => (i.key.eq ki.key, ki.value)) i.value, iteB (layer.map fun ki => (i.key.eq ki.key, ki.present)) i.present⟩

/-- ghostmaps.py:404-413 `known_items`: the items and the layers with their caches updated. -/
noncomputable def known (base : List Item) : List Layer → List Item × List Layer
  | [] => (base, [])
  | l :: ls =>
    let prev := known base ls
    let cache := if prev.1.length ≠ l.cache.1 then (prev.1.length, l.cache.2 ++ transform l.items (prev.1.drop l.cache.1)) else l.cache
    (l.items ++ cache.2, { l with cache := cache } :: prev.2)

open Classical in
/-- utils.py:72-85 `get_exact_match`. -/
noncomputable def exactMatch (cs : List B) (key : E) (cands : List Item) (assumption : B) : Option Item :=
  match cands.find? fun c => key.same c.key with
  | some c => some c
  | none => if key.symbolic then cands.find? fun c => definitely cs (.or (.not assumption) (key.eq c.key)) else none

/-- ghostmaps.py:456-461: the number of known items with different keys. `keys` are those already seen. -/
def knownLength : E → List E → List Item → E
  | n, _, [] => n
  | n, keys, i :: is =>
    knownLength (n.add (.ite (.and (andAll (keys.map fun k => .not (i.key.eq k))) i.present) (.const 1) (.const 0))) (keys ++ [i.key]) is

/-- ghostmaps.py:443-445. -/
def isEmpty (length : E) : Bool := !length.symbolic && length.den env0 == 0

/-- ghostmaps.py:447-462 `is_not_overfull`, given the length and the known items. -/
noncomputable def notOverfull (cs : List B) (length : E) (items : List Item) : B :=
  if definitely cs (.rel (fun x y => decide (x ≤ y)) (.const items.length) length) then .lit true
  else (knownLength (.const 0) [] items).le length

/-- The state with another map for an object. -/
def State.setMap (st : State) (obj : Nat) (m : MapS) : State := { st with maps := fun o => if o = obj then m else st.maps o }

/-- The number of newest layers to skip for a version: ghostmaps.py:170-176. -/
def skip (m : MapS) (ver : Option Nat) : Nat :=
  match ver with
  | none => 0
  | some v => m.layers.length - v

/-- Replace the layers below the newest `d` ones. -/
def MapS.setLower (m : MapS) (d : Nat) (ls : List Layer) : MapS := { m with layers := m.layers.take d ++ ls }

/-- A read of a map: object, version, key, expected value, condition. -/
abbrev GetFn := State → Nat → Option Nat → E → Option E → B → Option ((E × B) × State)

mutual
/-- ghostmaps.py:78-91 `eval_map_ast`, for bit vector expressions. -/
def evalE (g : GetFn) (item : Item) (cond : B) (st : State) : IE → Option (E × State)
  | .key => some (item.key, st)
  | .value => some (item.value, st)
  | .lift e => some (e, st)
  | .op1 f a =>
    match evalE g item cond st a with
    | none => none
    | some (a, st) => some (.op1 f a, st)
  | .op2 f a b =>
    match evalE g item cond st a with
    | none => none
    | some (a, st) => match evalE g item cond st b with
      | none => none
      | some (b, st) => some (.op2 f a b, st)
  | .ite c t e =>
    match evalB g item cond st c with
    | none => none
    | some (c, st) => match evalE g item cond st t with
      | none => none
      | some (t, st) => match evalE g item cond st e with
        | none => none
        | some (e, st) => some (.ite c t e, st)
  | .mapGet obj k ver =>
    match evalE g item cond st k with
    | none => none
    | some (k, st) => match g st obj ver k none cond with
      | none => none
      | some (r, st) => some (r.1, st)
/-- ghostmaps.py:78-91 `eval_map_ast`, for Boolean expressions. Without a value, `has_handler` (line 84)
passes the second argument, which is None, as the version. -/
def evalB (g : GetFn) (item : Item) (cond : B) (st : State) : IB → Option (B × State)
  | .present => some (item.present, st)
  | .lift b => some (b, st)
  | .not a =>
    match evalB g item cond st a with
    | none => none
    | some (a, st) => some (.not a, st)
  | .and a b =>
    match evalB g item cond st a with
    | none => none
    | some (a, st) => match evalB g item cond st b with
      | none => none
      | some (b, st) => some (.and a b, st)
  | .or a b =>
    match evalB g item cond st a with
    | none => none
    | some (a, st) => match evalB g item cond st b with
      | none => none
      | some (b, st) => some (.or a b, st)
  | .iff a b =>
    match evalB g item cond st a with
    | none => none
    | some (a, st) => match evalB g item cond st b with
      | none => none
      | some (b, st) => some (.iff a b, st)
  | .rel r a b =>
    match evalE g item cond st a with
    | none => none
    | some (a, st) => match evalE g item cond st b with
      | none => none
      | some (b, st) => some (.rel r a b, st)
  | .mapHas obj k _ =>
    match evalE g item cond st k with
    | none => none
    | some (k, st) => match g st obj none k none cond with
      | none => none
      | some (r, st) => some (r.2, st)
  | .mapHasValue obj k v ver =>
    match evalE g item cond st k with
    | none => none
    | some (k, st) => match evalE g item cond st v with
      | none => none
      | some (v, st) => match g st obj ver k (some v) cond with
        | none => none
        | some (r, st) => some (.and r.2 (r.1.eq v), st)
end

/-- ghostmaps.py:110-112: an invariant applied to an item. -/
def applyInv (g : GetFn) (st : State) (inv : IB) (item : Item) (cond : B) : Option (B × State) :=
  evalB g item (.and item.present cond) st inv

/-- Applying several invariants in order. -/
def applyInvs (g : GetFn) (item : Item) (cond : B) : State → List IB → Option (List B × State)
  | st, [] => some ([], st)
  | st, inv :: invs =>
    match applyInv g st inv item cond with
    | none => none
    | some (b, st) => match applyInvs g item cond st invs with
      | none => none
      | some (bs, st) => some (b :: bs, st)

def State.add (st : State) (cs : List B) : State := { st with constraints := cs ++ st.constraints }

/-- ghostmaps.py:194-195: the constraint for an expected value. -/
def hintConstraint (cond : B) (value : E) : Option E → List B
  | none => []
  | some h => [implies cond (value.eq h)]

/-- ghostmaps.py:201 and 268. -/
def isUnknown (key : E) (items : List Item) : B := andAll (items.map fun i => .not (key.eq i.key))

/-- ghostmaps.py:209. -/
def sameAs (item : Item) (items : List Item) : List B :=
  items.map fun i => implies (item.key.eq i.key) (.and (item.value.eq i.value) (.iff item.present i.present))

/-- `is_not_overfull` of a version in a state, which updates the caches. -/
noncomputable def overfullCheck (st : State) (obj d : Nat) : B × State :=
  let m := st.maps obj
  let k := known m.base (m.layers.drop d)
  (notOverfull st.constraints (lengthOf m (m.layers.drop d)) k.1, st.setMap obj (m.setLower d k.2))

/-- ghostmaps.py:192-218: the part of `get` that adds an item, for the version without the newest `d` layers. -/
noncomputable def getNew (g : GetFn) (st : State) (obj d : Nat) (items : List Item) (key : E) (hint : Option E) (cond : B) :
    Option ((E × B) × State) :=
  let item : Item := ⟨key, .var st.next, .var st.next⟩
  let m := st.maps obj
  let st1 := ({ st with next := st.next + 1 }.add (hintConstraint cond item.value hint)).setMap obj { m with base := m.base ++ [item] }
  match applyInvs g item cond st1 m.invs with
  | none => none
  | some (bs, st2) =>
    let o := overfullCheck st2 obj d
    some ((item.value, item.present),
      o.2.add (sameAs item (items ++ [m.unknown]) ++ bs.map (implies (isUnknown key items)) ++ [o.1]))

/-- ghostmaps.py:169-218 `get`. The natural number bounds the depth of nested reads. -/
noncomputable def get : Nat → GetFn
  | 0, _, _, _, _, _, _ => none
  | fuel + 1, st, obj, ver, key, hint, cond =>
    let m := st.maps obj
    let d := skip m ver
    if isEmpty (lengthOf m (m.layers.drop d)) then some ((.var st.next, .lit false), { st with next := st.next + 1 })
    else
      let k := known m.base (m.layers.drop d)
      let st := st.setMap obj (m.setLower d k.2)
      match exactMatch st.constraints key (k.1 ++ [m.unknown]) cond with
      | some i => some ((i.value, i.present), st)
      | none => getNew (get fuel) st obj d k.1 key hint cond

open Classical in
/-- utils.py:47-53 `get_if_constant` of a Boolean, as used by ghostmaps.py:225-227. -/
noncomputable def constantOr (cs : List B) (b : B) : Option B :=
  if definitely cs b then (if definitely cs (.not b) then none else some (.lit true))
  else if definitely cs (.not b) then some (.lit false) else some b

open Classical in
/-- ghostmaps.py:423-424: whether a new item is put into the newest layer. -/
noncomputable def flattens (layers : List Layer) (key : E) : Bool :=
  match layers with
  | [] => false
  | l :: _ => !key.symbolic && l.items.all fun i => !i.key.symbolic && !i.key.same key

/-- ghostmaps.py:421-441 `with_item_layer`. -/
noncomputable def withItemLayer (m : MapS) (item : Item) (change : E) : MapS :=
  if flattens m.layers item.key then
    match m.layers with
    | [] => m
    | l :: ls => { m with layers := ⟨l.items ++ [item], l.length.add change, l.cache⟩ :: ls }
  else { m with layers := ⟨[item], (lengthOf m m.layers).add change, (0, [])⟩ :: m.layers }

/-- ghostmaps.py:220-236 `set`, and GhostMapsPlugin.set (513-514). -/
noncomputable def set (fuel : Nat) (st : State) (obj : Nat) (key value : E) : Option State :=
  match get fuel st obj none key none (.lit true) with
  | none => none
  | some (r, st) =>
    match constantOr st.constraints r.2 with
    | none => none
    | some p => some (st.setMap obj (withItemLayer (st.maps obj) ⟨key, value, .lit true⟩ (.ite p (.const 0) (.const 1))))

/-- ghostmaps.py:238-253 `remove`, and GhostMapsPlugin.remove (516-517); -1 is 2^64 - 1. -/
noncomputable def remove (fuel : Nat) (st : State) (obj : Nat) (key : E) : Option State :=
  match get fuel st obj none key none (.lit true) with
  | none => none
  | some (r, st) =>
    let value := E.var st.next
    let st := { st with next := st.next + 1 }
    some (st.setMap obj (withItemLayer (st.maps obj) ⟨key, value, .lit false⟩ (.ite r.2 (.const (2 ^ 64 - 1)) (.const 0))))

/-- ghostmaps.py:379-386 `add_invariant_conjunction`. -/
noncomputable def addInv (fuel : Nat) (st : State) (obj : Nat) (inv : IB) : Option State :=
  match applyInv (get fuel) st inv (st.maps obj).unknown (.lit true) with
  | none => none
  | some (b, st) =>
    let st := st.add [b]
    let m := st.maps obj
    some (st.setMap obj { m with invs := m.invs ++ [inv] })

/-- ghostmaps.py:266: a predicate applied to several items in order. -/
noncomputable def applyAll (fuel : Nat) (pred : IB) : State → List Item → Option (List B × State)
  | st, [] => some ([], st)
  | st, i :: is =>
    match applyInv (get fuel) st pred i (.lit true) with
    | none => none
    | some (b, st) => match applyAll fuel pred st is with
      | none => none
      | some (bs, st) => some (b :: bs, st)

mutual
/-- ghostmaps.py:72-76 `freeze_map_ast_versions`. -/
def freezeE (st : State) : IE → IE
  | .key => .key
  | .value => .value
  | .lift e => .lift e
  | .op1 f a => .op1 f (freezeE st a)
  | .op2 f a b => .op2 f (freezeE st a) (freezeE st b)
  | .ite c t e => .ite (freezeB st c) (freezeE st t) (freezeE st e)
  | .mapGet obj k _ => .mapGet obj (freezeE st k) (some (st.maps obj).version)
def freezeB (st : State) : IB → IB
  | .present => .present
  | .lift b => .lift b
  | .not a => .not (freezeB st a)
  | .and a b => .and (freezeB st a) (freezeB st b)
  | .or a b => .or (freezeB st a) (freezeB st b)
  | .iff a b => .iff (freezeB st a) (freezeB st b)
  | .rel r a b => .rel r (freezeE st a) (freezeE st b)
  | .mapHas obj k _ => .mapHas obj (freezeE st k) (some (st.maps obj).version)
  | .mapHasValue obj k v _ => .mapHasValue obj (freezeE st k) (freezeE st v) (some (st.maps obj).version)
end

/-- ghostmaps.py:255-277 `forall`, for the current version; the predicate speaks of KEY and VALUE. The
items are those known when it is called, also if the predicate reads the same map. -/
noncomputable def forall_ (fuel : Nat) (st : State) (obj : Nat) (pred : IB) : Option (B × State) :=
  let pred := freezeB st (iimplies .present pred)
  let m := st.maps obj
  if isEmpty (lengthOf m m.layers) then some (.lit true, st)
  else
    let k := known m.base m.layers
    let st := st.setMap obj (m.setLower 0 k.2)
    match applyAll fuel pred st k.1 with
    | none => none
    | some (bs, st) =>
      let o := overfullCheck st obj 0
      match applyInv (get fuel) o.2 pred m.unknown (.lit true) with
      | none => none
      | some (u, st) =>
        let result := B.var st.next
        let st := { st with next := st.next + 1 }.add
          [.iff result (.and (andAll bs) (implies o.1 (implies (isUnknown m.unknown.key k.1) u)))]
        match addInv fuel st obj (iimplies (.lift result) pred) with
        | none => none
        | some st => some (result, st)

/-- ghostmaps.py:131-160 `Map.new` without invariants and length: an empty map. The symbols of the
unknown item are the next one. -/
noncomputable def newEmpty (fuel : Nat) (st : State) (obj : Nat) : Option State :=
  let u : Item := ⟨.var st.next, .var (st.next + 1), .var st.next⟩
  let st := { st with next := st.next + 2 }.setMap obj ⟨[], [], .const 0, u, []⟩
  addInv fuel st obj (.not .present)

/-- ghostmaps.py:162-164 `new_array`. -/
noncomputable def newArray (fuel : Nat) (st : State) (obj : Nat) (length : E) : Option State :=
  let u : Item := ⟨.var st.next, .var (st.next + 1), .var st.next⟩
  let st := { st with next := st.next + 2 }.setMap obj ⟨[], [], length, u, []⟩
  addInv fuel st obj (.iff (.rel (fun x y => decide (x < y)) .key (.lift length)) .present)

end Verif.Tool.GhostMap
