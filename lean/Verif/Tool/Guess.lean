/-
Model of guessing which relations between maps may hold: /repo/tool/klint/ghostmaps.py:648-830, 836-838.

It works on the states of `GhostMap.lean` and gives the guesses that `Infer.lean` takes as a parameter. Python sets (of items, of
constants) have no order: the order in which their elements come up is a parameter, any function from a set to an order of it.
Sizes of keys and values, which the states do not have, are parameters, too, and so is what the heap knows of the objects.
-/
import Verif.Tool.Infer

set_option autoImplicit false

namespace Verif.Tool.GhostMap

/-- ghostmaps.py:794-795 `get_key`, `get_value`. -/
inductive Sel where
  | key
  | value
deriving DecidableEq

/-- The selected part of an item. -/
def Sel.of : Sel → Item → E
  | .key, i => i.key
  | .value, i => i.value

/-- The selected part, as a function of a key and a value. -/
def Sel.slot : Sel → IE
  | .key => .key
  | .value => .value

/-- ghostmaps.py:657-659, the loop of `filter_present`: `seen` are the items that are in the set. -/
noncomputable def presentFrom (cs : List B) : List Item → List Item → List Item
  | seen, [] => seen
  | seen, i :: is =>
    if definitely cs (.and i.present (andAll (seen.map fun p => .not (i.key.eq p.key)))) then presentFrom cs (seen ++ [i]) is
    else presentFrom cs seen is

/-- ghostmaps.py:655-660 `filter_present`: set items that are in the map and different, for sure. -/
noncomputable def filterPresent (st : State) (obj : Nat) : List Item := presentFrom st.constraints [] (setItems (st.maps obj).layers)

/-- claripy addition of two bit vectors of `w` bits. -/
def addW (w : Nat) (a b : E) : E := .op2 (fun x y => (x + y) % 2 ^ w) a b

open Classical in
/-- ghostmaps.py:732-734: the number of bits of `x`, and `x`, if the expression is "(0..x)". -/
noncomputable def zeroConcat (e : E) : Option (Nat × E) :=
  if h : ∃ p : Nat × E, e = concatE p.1 (.const 0) p.2 then some h.choose else none

open Classical in
/-- ghostmaps.py:740-745: the number of zero bits, `x`, and `n`, if the expression, which has `w` bits, is "(x..0) + n" and `n` has only symbols that are known
from the ancestor. -/
noncomputable def shifted (ancVars : List Sym) (w : Nat) (e : E) : Option (Nat × E × E) :=
  if h : ∃ p : Nat × E × E, e = addW w (concatE p.1 p.2.1 (.const 0)) p.2.2 ∧ ∀ s ∈ p.2.2.syms, s ∈ ancVars then some h.choose else none

/-- ghostmaps.py:748, 750: the upper bits, down to bit `low`, of a difference of two bit vectors of `w` bits. -/
def unshift (w low : Nat) (a n : IE) : IE := .op2 (fun x y => (x + (2 ^ w - y % 2 ^ w)) % 2 ^ w / 2 ^ low) a n

/-- ghostmaps.py:717-751 `candidate_finder_various`, given the sizes and the selected parts of the items. A zero extension (749-750) does not change the value. -/
noncomputable def finderVarious (ancVars : List Sym) (st : State) (w1 w2 : Nat) (sel1 : Sel) (x1 x2 : E) : Option IE :=
  if w1 ≠ w2 then none
  else if definitely st.constraints (x1.eq x2) then some sel1.slot
  else if E.occurs x1 x2 then some (E.repl x1 sel1.slot x2)
  else
    match (match zeroConcat x1 with
      | some (w, x) => if E.occurs x x2 then some (E.repl x (.op1 (fun n => n % 2 ^ w) sel1.slot) x2) else none
      | none => none) with
    | some f => some f
    | none =>
      match shifted ancVars w1 x1 with
      | none => none
      | some (low, x, n) =>
        if E.occurs x x2 then some (E.repl x (unshift w1 low sel1.slot (.lift n)) x2)
        else if definitely st.constraints (x2.eq x) then some (unshift w1 low sel1.slot (.lift n))
        else none

/-- ghostmaps.py:753-760 `candidate_finder_constant`. -/
noncomputable def finderConstant (st : State) (sel2 : Sel) (x2 : E) : Option IE :=
  match sel2 with
  | .key => none
  | .value => (constantValue st.constraints x2).map fun c => .lift (.const c)

/-- What a search for a function is about: the sizes of keys and values, the ancestor's symbols, the order of sets, whether to try constants. -/
structure Search where
  size : Nat → Sel → Nat
  ancVars : List Sym
  order : List Item → List Item
  constants : Bool

/-- ghostmaps.py:694-696: the first finder that finds a function for a pair of items. -/
noncomputable def tryFinders (s : Search) (st : State) (o1 o2 : Nat) (sel1 sel2 : Sel) (it1 it2 : Item) : Option IE :=
  match finderVarious s.ancVars st (s.size o1 sel1) (s.size o2 sel2) sel1 (sel1.of it1) (sel2.of it2) with
  | some f => some f
  | none => if s.constants then finderConstant st sel2 (sel2.of it2) else none

/-- ghostmaps.py:665-672 `is_candidate_valid`, where the second set has as many items (`pop` of an empty set would raise). Candidates read no map, so evaluating them does
not change the state. -/
noncomputable def candidateValid (fuel : Nat) (st : State) (sel2 : Sel) (f : IE) : List Item → List Item → Option Bool
  | [], _ => some true
  | _ :: _, [] => none
  | i1 :: is1, i2 :: is2 =>
    match evalE (get fuel) i1 (.lit true) st f with
    | none => none
    | some (e, _) => if definitely st.constraints ((sel2.of i2).eq e) then candidateValid fuel st sel2 f is1 is2 else some false

/-- ghostmaps.py:693-706: the first item of the second map for which there is a function, and the other items. -/
noncomputable def firstMatch (find : Item → Option IE) : List Item → List Item → Option (IE × Item × List Item)
  | _, [] => none
  | before, i :: is =>
    match find i with
    | some f => some (f, i, before ++ is)
    | none => firstMatch find (before ++ [i]) is

/-- ghostmaps.py:676-715, the rest of `find_f`, from the given candidate. -/
noncomputable def findFrom (fuel : Nat) (s : Search) (o1 o2 : Nat) (sel1 sel2 : Sel) : Option IE → List State → Option IE
  | cand, [] => cand
  | cand, st :: sts =>
    let items1 := filterPresent st o1
    let items2 := filterPresent st o2
    if items1.length = 0 then findFrom fuel s o1 o2 sel1 sel2 cand sts
    else if items1.length > items2.length then none
    else if items1.length < items2.length then none
    else
      match cand with
      | none =>
        match s.order items1 with
        | [] => none
        | it1 :: rest1 =>
          match firstMatch (tryFinders s st o1 o2 sel1 sel2 it1) [] (s.order items2) with
          | none => none
          | some (f, _, rest2) =>
            match candidateValid fuel st sel2 f (s.order rest1) (s.order rest2) with
            | some true => findFrom fuel s o1 o2 sel1 sel2 (some f) sts
            | _ => none
      | some f =>
        match candidateValid fuel st sel2 f (s.order items1) (s.order items2) with
        | some true => findFrom fuel s o1 o2 sel1 sel2 (some f) sts
        | _ => none

/-- ghostmaps.py:663-715 `find_f`. -/
noncomputable def findF (fuel : Nat) (s : Search) (states : List State) (o1 o2 : Nat) (sel1 sel2 : Sel) : Option IE :=
  findFrom fuel s o1 o2 sel1 sel2 none states

/-- ghostmaps.py:769: the constants that items have as values. -/
noncomputable def constantsOf (states : List State) (obj : Nat) : List Nat :=
  (states.flatMap fun st => (filterPresent st obj).filterMap fun i => constantValue st.constraints i.value).eraseDups

/-- ghostmaps.py:763-770 `find_fps`, given the fractions of the object, if any, which have no fractions themselves. The functions made on line 767 share the variable of the loop, so all of them are
the last one. -/
noncomputable def findFps (orderN : List Nat → List Nat) (fracs : Option Nat) (states : List State) (obj : Nat) (isArray : Bool) : List IB :=
  match fracs with
  | some fo =>
    let cs := orderN (constantsOf states fo)
    cs.map fun _ => ieq (.mapGet fo .key none) (.lift (.const (cs.getLastD 0)))
  | none => (if isArray then [] else [.lift (.lit true)]) ++ (orderN (constantsOf states obj)).map fun c => ieq .value (.lift (.const c))

/-- The objects, as far as guessing distinguishes them: fractions (heap.py:105-111) and "allocated_addr" in the name (ghostmaps.py:781-783). -/
structure Objects where
  fractions : Nat → Option Nat
  isFractions : Nat → Bool
  isArray : Nat → Bool

/-- ghostmaps.py:813-816: the function to a key of another map. -/
noncomputable def findFk (fuel : Nat) (s : Search) (states : List State) (o other : Nat) : Option IE :=
  match findF fuel { s with constants := false } states o other .key .key with
  | some f => some f
  | none => findF fuel { s with constants := false } states o other .value .key
/-- ghostmaps.py:820-825: the function to a value of another map. -/
noncomputable def findFv (fuel : Nat) (s : Search) (objs : Objects) (states : List State) (o other : Nat) : Option IE :=
  match findF fuel { s with constants := !(objs.isArray o && objs.isArray other) } states o other .key .value with
  | some f => some f
  | none => findF fuel { s with constants := !(objs.isArray o && objs.isArray other) } states o other .value .value

/-- ghostmaps.py:827-842: what is tried for another map, in order. -/
noncomputable def triesFor (other : Nat) (fk : IE) (fv : Option IE) (fps : List IB) : List IB :=
  fps.flatMap fun fp =>
    (match fv with
      | some fv => [iimplies fp (.mapHasValue other fk fv none)]
      | none => []) ++ [iimplies fp (.mapHas other fk none)]

/-- ghostmaps.py:773-843: the guesses of `get_items_invariants`; `states` are those in which the map changed. -/
noncomputable def realGuess (fuel : Nat) (s : Search) (orderN : List Nat → List Nat) (objs : Objects) (anc : State) : Guess := fun obj relevant states =>
  if objs.isFractions obj then []
  else
    let fps := findFps orderN (objs.fractions obj) states obj (objs.isArray obj)
    if fps.length = 0 then []
    else relevant.filterMap fun other =>
      if other = obj then none
      else if states.all fun st => st.version other == anc.version other then none
      else if objs.fractions other = some obj then none
      else
        match findFk fuel s states obj other with
        | none => none
        | some fk => some (triesFor other fk (findFv fuel s objs states obj other) fps)

end Verif.Tool.GhostMap
