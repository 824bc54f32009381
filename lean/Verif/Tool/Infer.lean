/-
Model of invariant inference: /repo/tool/klint/ghostmaps.py:576-940 and the loop around it,
/repo/tool/klint/executor.py:55-83.

It works on the states of `GhostMap.lean`, with the simplifications given there. The maps of a state are those of the
objects in a list (`get_all`). Guessing which relations between maps may hold (ghostmaps.py:655-825) is in
`Guess.lean`: here the guesses are a parameter, and the checks decide which of them are assumed.
-/
import Verif.Tool.GhostMap

set_option autoImplicit false

namespace Verif.Tool.GhostMap

/-- A symbol. -/
inductive Sym where
  | bv (i : Nat)
  | bl (i : Nat)
deriving DecidableEq

mutual
/-- claripy `.variables`. -/
def E.syms : E → List Sym
  | .const _ => []
  | .var i => [.bv i]
  | .op1 _ a => a.syms
  | .op2 _ a b => a.syms ++ b.syms
  | .ite c t e => c.syms ++ t.syms ++ e.syms
def B.syms : B → List Sym
  | .lit _ => []
  | .var i => [.bl i]
  | .not a => a.syms
  | .and a b => a.syms ++ b.syms
  | .or a b => a.syms ++ b.syms
  | .iff a b => a.syms ++ b.syms
  | .ite c t e => c.syms ++ t.syms ++ e.syms
  | .rel _ a b => a.syms ++ b.syms
end

def State.syms (st : State) : List Sym := st.constraints.flatMap B.syms

def Item.syms (i : Item) : List Sym := i.key.syms ++ i.value.syms ++ i.present.syms

/-- ghostmaps.py:577-585 `get_variables`. -/
def getVariables (objs : List Nat) : List State → List Sym
  | [] => []
  | s :: ss =>
    (s.syms.filter fun v => ss.all fun t => decide (v ∈ t.syms)).filter fun v => objs.all fun o => decide (v ∉ (s.maps o).unknown.syms)

open Classical in
/-- utils.py:47-53 `get_if_constant` of a bit vector. It raises if the constraints cannot be satisfied, which its callers here exclude. -/
noncomputable def constantValue (cs : List B) (e : E) : Option Nat :=
  if h : ∃ c, (∃ ρ, sat cs ρ) ∧ ∀ ρ, sat cs ρ → e.den ρ = c then some h.choose else none

open Classical in
mutual
/-- claripy `.replace` of an expression by one of an invariant. -/
noncomputable def E.repl (x : E) (r : IE) : E → IE
  | .const n => if E.const n = x then r else .lift (.const n)
  | .var i => if E.var i = x then r else .lift (.var i)
  | .op1 f a => if E.op1 f a = x then r else .op1 f (E.repl x r a)
  | .op2 f a b => if E.op2 f a b = x then r else .op2 f (E.repl x r a) (E.repl x r b)
  | .ite c t e => if E.ite c t e = x then r else .ite (B.repl x r c) (E.repl x r t) (E.repl x r e)
/-- The same in Boolean expressions; a Boolean `If` is written with the other operations. -/
noncomputable def B.repl (x : E) (r : IE) : B → IB
  | .lit b => .lift (.lit b)
  | .var i => .lift (.var i)
  | .not a => .not (B.repl x r a)
  | .and a b => .and (B.repl x r a) (B.repl x r b)
  | .or a b => .or (B.repl x r a) (B.repl x r b)
  | .iff a b => .iff (B.repl x r a) (B.repl x r b)
  | .ite c t e => .or (.and (B.repl x r c) (B.repl x r t)) (.and (.not (B.repl x r c)) (B.repl x r e))
  | .rel f a b => .rel f (E.repl x r a) (E.repl x r b)
end

open Classical in
mutual
/-- Whether an expression is part of another, that is, whether replacing it changes anything (ghostmaps.py:600). -/
noncomputable def E.occurs (x : E) : E → Bool
  | .const n => decide (E.const n = x)
  | .var i => decide (E.var i = x)
  | .op1 f a => decide (E.op1 f a = x) || E.occurs x a
  | .op2 f a b => decide (E.op2 f a b = x) || E.occurs x a || E.occurs x b
  | .ite c t e => decide (E.ite c t e = x) || B.occurs x c || E.occurs x t || E.occurs x e
noncomputable def B.occurs (x : E) : B → Bool
  | .lit _ => false
  | .var _ => false
  | .not a => B.occurs x a
  | .and a b => B.occurs x a || B.occurs x b
  | .or a b => B.occurs x a || B.occurs x b
  | .iff a b => B.occurs x a || B.occurs x b
  | .ite c t e => B.occurs x c || B.occurs x t || B.occurs x e
  | .rel _ a b => E.occurs x a || E.occurs x b
end

/-- claripy `Concat` where the second part has `w` bits. -/
def concatE (w : Nat) (a b : E) : E := .op2 (fun x y => x * 2 ^ w + y % 2 ^ w) a b

open Classical in
/-- ghostmaps.py:606: the number of bits below the leading part, if that is zero. -/
noncomputable def zeroTop (e : E) : Option Nat := if h : ∃ w x, e = concatE w (.const 0) x then some h.choose else none

def ieq (a b : IE) : IB := .rel (fun x y => x == y) a b

/-- ghostmaps.py:588-608 `find_constraints`: what the constraints say of an expression, said of `slot` instead. -/
noncomputable def findConstraints (cs : List B) (expr : E) (slot : IE) (ancVars : List Sym) : List IB :=
  match constantValue cs expr with
  | some c => [ieq slot (.lift (.const c))]
  | none =>
    ((cs.filter fun c => B.occurs expr c && c.syms.all fun v => decide (v ∈ expr.syms) || decide (v ∈ ancVars)).map fun c => B.repl expr slot c) ++
      match zeroTop expr with
      | none => []
      | some w => [ieq (.op1 (fun n => n / 2 ^ w) slot) (.lift (.const 0))]

/-- claripy `And(*l)` in invariants. -/
def iandAll : List IB → IB
  | [] => .lift (.lit true)
  | b :: bs => .and b (iandAll bs)

/-- ghostmaps.py:388-413 `known_items(only_set=True)`. -/
noncomputable def setItems : List Layer → List Item
  | [] => []
  | l :: ls => l.items ++ transform l.items (setItems ls)

/-- ghostmaps.py:620-622: what is added to an invariant that an item does not satisfy. -/
noncomputable def widening (cs : List B) (item : Item) (ancVars : List Sym) : IB :=
  iandAll (findConstraints cs item.key .key ancVars ++ findConstraints cs item.value .value ancVars)

/-- ghostmaps.py:616-623: one invariant and the items of one state. -/
noncomputable def flattenItems (fuel : Nat) (ancVars : List Sym) : IB → Bool → State → List Item → Option (IB × Bool × State)
  | conj, changed, st, [] => some (conj, changed, st)
  | conj, changed, st, item :: items =>
    match applyInv (get fuel) st (freezeB st conj) item (.lit true) with
    | none => none
    | some (b, st) =>
      if definitely st.constraints (implies item.present b) then flattenItems fuel ancVars conj changed st items
      else flattenItems fuel ancVars (.or conj (widening st.constraints item ancVars)) true st items

/-- ghostmaps.py:615-623: one invariant and all states. -/
noncomputable def flattenStates (fuel : Nat) (ancVars : List Sym) (obj : Nat) : IB → Bool → List State → Option (IB × Bool × List State)
  | conj, changed, [] => some (conj, changed, [])
  | conj, changed, st :: sts =>
    match flattenItems fuel ancVars conj changed st (setItems (st.maps obj).layers) with
    | none => none
    | some (conj, changed, st) =>
      match flattenStates fuel ancVars obj conj changed sts with
      | none => none
      | some (conj, changed, sts) => some (conj, changed, st :: sts)

/-- ghostmaps.py:611-625 `flatten_items`: the invariants, whether any was changed, and the states, which reads of maps in the invariants may have
added items to. -/
noncomputable def flatten (fuel : Nat) (ancVars : List Sym) (obj : Nat) : List IB → Bool → List State → Option (List IB × Bool × List State)
  | [], changed, sts => some ([], changed, sts)
  | conj :: conjs, changed, sts =>
    match flattenStates fuel ancVars obj conj changed sts with
    | none => none
    | some (conj, changed, sts) =>
      match flatten fuel ancVars obj conjs changed sts with
      | none => none
      | some (conjs, changed, sts) => some (conj :: conjs, changed, sts)

/-- The current version of a map of a state. -/
def State.version (st : State) (obj : Nat) : Nat := (st.maps obj).version

/-- ghostmaps.py:501-502: the current length of a map of a state. -/
def State.length (st : State) (obj : Nat) : E := lengthOf (st.maps obj) (st.maps obj).layers

/-- ghostmaps.py:642: the relation between the lengths of two maps. -/
def lengthInv (st : State) (obj other : Nat) : B := (st.length obj).le (st.length other)

/-- ghostmaps.py:629-646 `get_length_invariants`: the other maps that are at least as long. -/
noncomputable def getLengthInvariants (obj : Nat) (relevant : List Nat) (states : List State) (anc : State) : Option (List Nat) :=
  if states.all fun st => definitely st.constraints ((st.length obj).eq (anc.length obj)) then none
  else some (relevant.filter fun other =>
    other != obj &&
    !(states.all fun st => st.version obj == anc.version obj || st.version other == anc.version other) &&
    states.all fun st => definitely st.constraints (lengthInv st obj other))

/-- ghostmaps.py:255-277 `forall` of an invariant, which is used as it is; see `forall_`. -/
noncomputable def forallInv (fuel : Nat) (st : State) (obj : Nat) (pred : IB) : Option (B × State) :=
  let m := st.maps obj
  if isEmpty (lengthOf m m.layers) then some (.lit true, st)
  else
    let k := known m.base m.layers
    let st := st.setMap obj (m.setLower 0 k.2)
    match applyAll fuel pred st k.1 with
    | none => none
    | some (bs, st) =>
      let o := overfullCheck st obj 0
      match applyInv (get fuel) o.2 pred m.unknown (.lit true) with
      | none => none
      | some (u, st) =>
        let result := B.var st.next
        let st := { st with next := st.next + 1 }.add
          [.iff result (.and (andAll bs) (implies o.1 (implies (isUnknown m.unknown.key k.1) u)))]
        match addInv fuel st obj (iimplies (.lift result) pred) with
        | none => none
        | some st => some (result, st)

/-- ghostmaps.py:831, 839: whether a predicate holds of all items of a map in all states. -/
noncomputable def holdsInAll (fuel : Nat) (obj : Nat) (pred : IB) : List State → Option (Bool × List State)
  | [] => some (true, [])
  | st :: sts =>
    match forall_ fuel st obj pred with
    | none => none
    | some (b, st) =>
      if definitely st.constraints b then
        match holdsInAll fuel obj pred sts with
        | none => none
        | some (r, sts) => some (r, st :: sts)
      else some (false, st :: sts)

/-- ghostmaps.py:827-842: the first of the predicates for another map that holds. -/
noncomputable def firstThatHolds (fuel : Nat) (obj : Nat) : List IB → List State → Option (Option IB × List State)
  | [], sts => some (none, sts)
  | p :: ps, sts =>
    match holdsInAll fuel obj p sts with
    | none => none
    | some (true, sts) => some (some p, sts)
    | some (false, sts) => firstThatHolds fuel obj ps sts

/-- ghostmaps.py:802-843: for each other map, the first predicate that holds, if any. -/
noncomputable def checkGuesses (fuel : Nat) (obj : Nat) : List (List IB) → List State → Option (List IB)
  | [], _ => some []
  | ps :: rest, sts =>
    match firstThatHolds fuel obj ps sts with
    | none => none
    | some (p, sts) =>
      match checkGuesses fuel obj rest sts with
      | none => none
      | some qs => some (p.toList ++ qs)

/-- What may hold between a map and others: for each other map, predicates on the items of the map, to be tried in order. -/
abbrev Guess := Nat → List Nat → List State → List (List IB)

/-- ghostmaps.py:648-843 `get_items_invariants`; only states in which the map changed are looked at (787). -/
noncomputable def getItemsInvariants (fuel : Nat) (guess : Guess) (obj : Nat) (relevant : List Nat) (states : List State) (anc : State) : Option (List IB) :=
  let states := states.filter fun st => st.version obj != anc.version obj
  checkGuesses fuel obj (guess obj relevant states) states

/-- What is found about one map: whether anything changed, invariants that were widened, new predicates, and the maps that are at least as long (none: the length does
not change). -/
structure Found where
  changed : Bool
  conjs : List IB
  preds : List IB
  lens : Option (List Nat)

/-- ghostmaps.py:881-901: the length of one map. -/
noncomputable def inferLength (relevant : List Nat) (anc : State) (states : List State) (obj : Nat) : Option (List Nat) → Bool × Option (List Nat)
  | none =>
    match getLengthInvariants obj relevant states anc with
    | none => (false, none)
    | some l => (true, some l)
  | some l =>
    let good := fun other => states.all fun st => definitely st.constraints (lengthInv st obj other)
    (!l.all good, some (l.filter good))

/-- ghostmaps.py:870-901: one map. -/
noncomputable def inferObj (fuel : Nat) (guess : Guess) (relevant : List Nat) (ancVars : List Sym) (anc : State) (prev : Nat → Option (List Nat)) (states : List State)
    (obj : Nat) : Option Found :=
  match flatten fuel ancVars obj (anc.maps obj).invs false states with
  | none => none
  | some (conjs, changed, states) =>
    match (if changed then getItemsInvariants fuel guess obj relevant states anc else some []) with
    | none => none
    | some preds =>
      let l := inferLength relevant anc states obj (prev obj)
      some ⟨changed || l.1, conjs, preds, l.2⟩

/-- ghostmaps.py:869: all maps. -/
noncomputable def inferObjs (fuel : Nat) (guess : Guess) (relevant : List Nat) (ancVars : List Sym) (anc : State) (prev : Nat → Option (List Nat)) (states : List State) :
    List Nat → Option (List (Nat × Found))
  | [] => some []
  | obj :: objs =>
    match inferObj fuel guess relevant ancVars anc prev states obj with
    | none => none
    | some f =>
      match inferObjs fuel guess relevant ancVars anc prev states objs with
      | none => none
      | some fs => some ((obj, f) :: fs)

/-- ghostmaps.py:913-930: a map about which nothing is known but its length, if that did not change. -/
def relaxMap (st : State) (obj : Nat) (lens : Option (List Nat)) : State :=
  let u : Item := ⟨.var st.next, .var (st.next + 1), .var st.next⟩
  let length := match lens with
    | none => st.length obj
    | some _ => .var (st.next + 2)
  { st with next := st.next + 3 }.setMap obj ⟨[], [], length, u, []⟩

def relaxMaps (st : State) (fs : List (Nat × Found)) : State := fs.foldl (fun st f => relaxMap st f.1 f.2.lens) st

/-- ghostmaps.py:934-935: invariants assumed of a map. -/
noncomputable def assumeConjs (fuel : Nat) (obj : Nat) : State → List IB → Option State
  | st, [] => some st
  | st, p :: ps =>
    match forallInv fuel st obj p with
    | none => none
    | some (b, st) => assumeConjs fuel obj (st.add [b]) ps

/-- ghostmaps.py:937, with the function of line 830 or 838. -/
noncomputable def assumePreds (fuel : Nat) (obj : Nat) : State → List IB → Option State
  | st, [] => some st
  | st, p :: ps =>
    match forall_ fuel st obj p with
    | none => none
    | some (b, st) => assumePreds fuel obj (st.add [b]) ps

/-- ghostmaps.py:937, with the function of line 642. -/
def assumeLengths (st : State) (obj : Nat) (others : List Nat) : State := others.foldl (fun st other => st.add [lengthInv st obj other]) st

/-- ghostmaps.py:931-937: what was found, assumed of the maps. -/
noncomputable def assumeAll (fuel : Nat) : State → List (Nat × Found) → Option State
  | st, [] => some st
  | st, (obj, f) :: fs =>
    match assumeConjs fuel obj st f.conjs with
    | none => none
    | some st =>
      match assumePreds fuel obj st f.preds with
      | none => none
      | some st => assumeAll fuel (assumeLengths st obj (f.lens.getD [])) fs

/-- ghostmaps.py:910-937: a new state for an ancestor. No symbol is used twice, so those of the explored states, which are below `top`, are not used for it. -/
noncomputable def relax (fuel : Nat) (top : Nat) (fs : List (Nat × Found)) (anc : State) : Option State :=
  assumeAll fuel (relaxMaps { anc with next := max anc.next top } fs) fs

/-- The symbols used by the states are below this. -/
def topOf (states : List State) : Nat := states.foldl (fun n st => max n st.next) 0

/-- The results of `infer_invariants`. -/
inductive Inferred where
  | fixpoint
  | next (states : List State) (lens : Nat → Option (List Nat))

/-- All of the results, or nothing. -/
def allSome {α β : Type} (f : α → Option β) : List α → Option (List β)
  | [] => some []
  | a :: as =>
    match f a with
    | none => none
    | some b =>
      match allSome f as with
      | none => none
      | some bs => some (b :: bs)

/-- ghostmaps.py:861: the maps that changed. -/
def relevantObjs (objs : List Nat) (anc : State) (states : List State) : List Nat := objs.filter fun o => states.any fun st => st.version o != anc.version o

/-- ghostmaps.py:940: what was found about the lengths. -/
def lensOf (fs : List (Nat × Found)) (obj : Nat) : Option (List Nat) :=
  match fs.find? fun f => f.1 == obj with
  | none => none
  | some f => f.2.lens

/-- ghostmaps.py:850-940 `infer_invariants`. -/
noncomputable def infer (fuel : Nat) (guess : Guess) (objs : List Nat) (ancs states : List State) (prev : Nat → Option (List Nat)) : Option Inferred :=
  match states, ancs with
  | [], _ => some .fixpoint
  | _ :: _, [] => none
  | _ :: _, anc :: _ =>
    let relevant := relevantObjs objs anc states
    match inferObjs fuel guess relevant (getVariables objs ancs) anc prev states relevant with
    | none => none
    | some fs =>
      if fs.any fun f => f.2.changed then
        match allSome (relax fuel (topOf states) fs) ancs with
        | none => none
        | some new => some (.next new (lensOf fs))
      else some .fixpoint

/-- executor.py:66-72: the states after one packet, from each of the states. -/
def exploreAll (explore : State → Option (List State)) (ancs : List State) : Option (List State) :=
  match allSome explore ancs with
  | none => none
  | some l => some l.flatten

/-- executor.py:55-83 `find_fixedpoint_states`, for at most the given number of iterations: the states of the last iteration, which are returned, and those it started from and what was then
known about lengths. -/
noncomputable def fixpointLoop (fuel : Nat) (guess : Guess) (objs : List Nat) (explore : State → Option (List State)) : Nat → List State → (Nat → Option (List Nat)) →
    Option (List State × List State × (Nat → Option (List Nat)))
  | 0, _, _ => none
  | n + 1, ancs, prev =>
    match exploreAll explore ancs with
    | none => none
    | some states =>
      match infer fuel guess objs ancs states prev with
      | none => none
      | some .fixpoint => some (ancs, states, prev)
      | some (.next ancs prev) => fixpointLoop fuel guess objs explore n ancs prev

end Verif.Tool.GhostMap
