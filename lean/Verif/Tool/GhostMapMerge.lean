/-
Model of merging ghost maps: /repo/tool/klint/ghostmaps.py:282-343 (`can_merge`, `merge`) and 557-570 (GhostMapsPlugin.can_merge,
merge), with /repo/tool/kalm/utils.py:110-142 (`structural_eq`, `structural_diff`).

The state given to `merge` is the one whose constraints are already those of the merged solvers. Invariants are compared as
trees; item caches are not compared (ghostmaps.py:483-485 leaves them out).
-/
import Verif.Tool.GhostMap

set_option autoImplicit false

namespace Verif.Tool.GhostMap

open Classical in
/-- claripy `structurally_match` on Boolean expressions; those without symbols are constants. -/
noncomputable def B.same (a b : B) : Bool := decide (a = b) || (!a.symbolic && !b.symbolic && a.den env0 == b.den env0)

/-- utils.py:110-127 `structural_eq` on items, which are named tuples. -/
noncomputable def Item.same (a b : Item) : Bool := a.key.same b.key && a.value.same b.value && a.present.same b.present

/-- utils.py:125-126 `structural_eq` on lists of items. -/
noncomputable def sameItems : List Item → List Item → Bool
  | [], [] => true
  | a :: as, b :: bs => a.same b && sameItems as bs
  | _, _ => false

open Classical in
/-- utils.py:110-127 `structural_eq` on maps (ghostmaps.py:483-485 `_asdict`), for the versions with the given layers. -/
noncomputable def sameMaps (a b : MapS) : List Layer → List Layer → Bool
  | [], [] => decide (a.invs = b.invs) && a.baseLength.same b.baseLength && sameItems a.base b.base && a.unknown.same b.unknown
  | l :: ls, k :: ks => decide (a.invs = b.invs) && l.length.same k.length && sameItems l.items k.items && a.unknown.same b.unknown && sameMaps a b ls ks
  | _, _ => false

/-- utils.py:130-142 `structural_diff`: the items only on the left, on both sides, only on the right. -/
noncomputable def diff (left right : List Item) : List Item × List Item × List Item :=
  (left.filter fun i => !right.any fun c => i.same c, left.filter fun i => right.any fun c => i.same c,
    right.filter fun r => !left.any fun i => i.same r)

open Classical in
/-- ghostmaps.py:282-314 `can_merge` with one other map, for the versions with the given layers. With several other maps every check
is made for each of them. -/
noncomputable def canMerge (a b : MapS) : List Layer → List Layer → Bool
  | [], [] => sameMaps a b [] [] ||
      (decide (a.invs = b.invs) && a.baseLength.same b.baseLength && a.unknown.same b.unknown && decide ((diff a.base b.base).2.2.length ≤ 6))
  | l :: ls, k :: ks => sameMaps a b (l :: ls) (k :: ks) ||
      (decide (a.invs = b.invs) && l.length.same k.length && a.unknown.same b.unknown && canMerge a b ls ks && l.items.length == k.items.length &&
        decide ((diff l.items k.items).2.2.length ≤ 6))
  | _, _ => false

/-- ghostmaps.py:323-325: the invariants of items that the other side does not have. -/
noncomputable def mergeLeft (fuel : Nat) (invs : List IB) (mc : B) : State → List Item → Option State
  | st, [] => some st
  | st, i :: is =>
    match applyInvs (get fuel) i (.lit true) st invs with
    | none => none
    | some (bs, st) => mergeLeft fuel invs mc (st.add (bs.map (implies mc))) is

/-- ghostmaps.py:326-329: the items of the other side. -/
noncomputable def mergeRight (fuel : Nat) (obj : Nat) (mc : B) : State → List Item → Option State
  | st, [] => some st
  | st, i :: is =>
    match get fuel st obj (some 0) i.key none (.lit true) with
    | none => none
    | some (r, st) => mergeRight fuel obj mc (st.add [implies mc (.and (r.1.eq i.value) (.iff r.2 i.present))]) is

/-- ghostmaps.py:321-329: one other side, given by its items and its merge condition. -/
noncomputable def mergeSide (fuel : Nat) (obj : Nat) (st : State) (side : List Item × B) : Option State :=
  let m := st.maps obj
  let d := diff m.base side.1
  match mergeLeft fuel m.invs side.2 st d.1 with
  | none => none
  | some st => mergeRight fuel obj side.2 st (d.2.1 ++ d.2.2)

noncomputable def mergeSides (fuel : Nat) (obj : Nat) : State → List (List Item × B) → Option State
  | st, [] => some st
  | st, s :: ss =>
    match mergeSide fuel obj st s with
    | none => none
    | some st => mergeSides fuel obj st ss

/-- ghostmaps.py:330-332: items with the same key are the same. -/
def sameKeys (unknown : Item) : List Item → List B
  | [] => []
  | i :: is => sameAs i (is ++ [unknown]) ++ sameKeys unknown is

/-- ghostmaps.py:320-334: the part of `merge` for the base of a map. -/
noncomputable def mergeBase (fuel : Nat) (obj : Nat) (st : State) (sides : List (List Item × B)) : Option State :=
  match mergeSides fuel obj st sides with
  | none => none
  | some st =>
    let m := st.maps obj
    let st := st.add (sameKeys m.unknown m.base)
    let o := overfullCheck st obj m.layers.length
    some (o.2.add [o.1])

/-- ghostmaps.py:336-341: item `n` of a layer; the conditions are all the merge conditions, of which the first is this side's own. -/
def mergeItem (mcs : List B) (others : List (List Item)) (n : Nat) (i : Item) : Item :=
  ⟨iteE (mcs.zip (others.filterMap fun o => o[n]?.map (·.key))) i.key,
   iteE (mcs.zip (others.filterMap fun o => o[n]?.map (·.value))) i.value,
   iteB (mcs.zip (others.filterMap fun o => o[n]?.map (·.present))) i.present⟩

/-- The newest layer of each of the other maps that has one, and what is below. -/
def tops (others : List (MapS × List Layer)) : List (List Item) := others.filterMap fun o => o.2.head?.map (·.items)
def belows (others : List (MapS × List Layer)) : List (MapS × List Layer) := others.map fun o => (o.1, o.2.tail)

/-- ghostmaps.py:317-343 `merge`, for the version with the given layers (`pre` are those above it). -/
noncomputable def mergeFrom (fuel : Nat) (obj : Nat) (mcs : List B) (pre : List Layer) :
    State → List Layer → List (MapS × List Layer) → Option State
  | st, [], others =>
    if others.all fun o => sameMaps (st.maps obj) o.1 [] o.2 then some st
    else mergeBase fuel obj st ((others.map fun o => o.1.base).zip mcs.tail)
  | st, l :: ls, others =>
    if others.all fun o => sameMaps (st.maps obj) o.1 (l :: ls) o.2 then some st
    else
      let l' : Layer := { l with items := l.items.mapIdx (mergeItem mcs (tops others)) }
      let m := st.maps obj
      mergeFrom fuel obj mcs (pre ++ [l']) (st.setMap obj { m with layers := pre ++ l' :: ls }) ls (belows others)

/-- ghostmaps.py:317-343 `merge` and 567-570. -/
noncomputable def merge (fuel : Nat) (st : State) (obj : Nat) (others : List MapS) (mcs : List B) : Option State :=
  mergeFrom fuel obj mcs [] st (st.maps obj).layers (others.map fun o => (o, o.layers))

/-- ghostmaps.py:567-570 `GhostMapsPlugin.merge`: all the maps in turn. -/
noncomputable def mergeAll (fuel : Nat) (others : List (Nat → MapS)) (mcs : List B) : State → List Nat → Option State
  | st, [] => some st
  | st, obj :: objs =>
    match merge fuel st obj (others.map fun o => o obj) mcs with
    | none => none
    | some st => mergeAll fuel others mcs st objs

end Verif.Tool.GhostMap
