/-
The predicates and loop invariants with which VeriFast proves /repo/env/src/structs/map.c (map.c:174-311, 1138 and the
annotations of its functions).

Simplifications (whole file):
* A predicate on memory is a proposition on the memory of the model and the `struct map`; the permissions it stands for
  (`[0.25]chars(..)` for each key, the items themselves) are not modelled, only the contents.
* `size_t` and `hash_t` are natural numbers; the hash function `hash_fp` of the bytes is a parameter.
* Addresses are natural numbers and NULL is 0.
-/
import Verif.Env.HashMap
import Verif.Spec.Buckets
import Verif.Spec.GhostMap

set_option autoImplicit false

namespace Verif.MapPred
open Verif.Buckets
open Verif.ProofLib (loopFp isPow2)
open Verif.HashMap (Item Map)

abbrev Key := List UInt8

/-- map.c:175-180 `opts_size`. -/
def optsSize : List (Option Key) → Nat
  | [] => 0
  | h :: t => (if h = none then 0 else 1) + optsSize t

/-- map.c:182-191 `key_opt_list`. -/
def keyOptList (mem : Mem) (keySize : Nat) : List Nat → List (Option Key) → Prop
  | [], keyOpts => keyOpts = []
  | a :: as, keyOpts => ∃ keyOptst, keyOptList mem keySize as keyOptst ∧
      if a = 0 then keyOpts = none :: keyOptst else keyOpts = some (bytesAt mem a keySize) :: keyOptst

/-- map.c:193-206 `hash_list`. -/
def hashList (hf : Key → Nat) : List (Option Key) → List Nat → Prop
  | [], hashes => hashes = []
  | koh :: kot, hashes => ∃ hh ht, hashes = hh :: ht ∧ hashList hf kot ht ∧
      match koh with
      | none => True
      | some hv => hh = hf hv

/-- map.c:208-210 `has_given_hash`. -/
def hasGivenHash (hf : Key → Nat) (pos capacity : Int) (chain : Key × Nat) : Prop :=
  pos = loopFp (hf chain.1) capacity

/-- map.c:212-221 `key_chains_start_on_hash_fp`. -/
def keyChainsStartOnHash (hf : Key → Nat) : List (Bucket Key) → Int → Int → Prop
  | [], _, _ => True
  | h :: t, pos, capacity =>
    (∀ c ∈ h, hasGivenHash hf pos capacity c) ∧ keyChainsStartOnHash hf t (pos + 1) capacity

/-- map.c:223-230 `buckets_keys_insync`. -/
def bucketsKeysInsync (hf : Key → Nat) (capacity : Nat) (chains : List Int) (buckets : List (Bucket Key))
    (keyOpts : List (Option Key)) : Prop :=
  chains = bucketsGetChns buckets ∧ bucketsOk buckets ∧ keyChainsStartOnHash hf buckets 0 capacity ∧
  keyOpts = bucketsGetKeys buckets ∧ buckets.length = capacity

/-- map.c:232-241 `buckets_keys_insync_Xchain`. -/
def bucketsKeysInsyncXchain (hf : Key → Nat) (capacity : Nat) (chains : List Int) (buckets : List (Bucket Key))
    (start fin : Int) (keyOpts : List (Option Key)) : Prop :=
  chains = addPartialChain start (if fin < start then capacity + fin - start else fin - start) (bucketsGetChns buckets) ∧
  bucketsOk buckets ∧ keyChainsStartOnHash hf buckets 0 capacity ∧
  keyOpts = bucketsGetKeys buckets ∧ buckets.length = capacity

/-- map.c:243-268 `map_valuesaddrs`. -/
def mapValuesAddrs : List Nat → List (Option Key) → List Nat → GMap Key Nat → GMap Key Nat → Prop
  | [], keyOpts, values, mapValues, mapAddrs => keyOpts = [] ∧ values = [] ∧ mapValues = [] ∧ mapAddrs = []
  | kaddrsh :: kaddrst, keyOpts, values, mapValues, mapAddrs =>
    ∃ keyOptsh keyOptst valuesh valuest mapValuesRest mapAddrsRest,
      keyOpts = keyOptsh :: keyOptst ∧ values = valuesh :: valuest ∧
      mapValuesAddrs kaddrst keyOptst valuest mapValuesRest mapAddrsRest ∧
      GMap.Distinct mapValues ∧ GMap.Distinct mapAddrs ∧
      match keyOptsh with
      | none => mapValues = mapValuesRest ∧ mapAddrs = mapAddrsRest
      | some kohv => mapValuesRest = mapValues.remove kohv ∧ mapAddrsRest = mapAddrs.remove kohv ∧
          some valuesh = mapValues.get kohv ∧ some kaddrsh = mapAddrs.get kohv

/-- map.c:270-283 `mapp_core`. -/
def mappCore (hf : Key → Nat) (mem : Mem) (keySize capacity : Nat) (kaddrs hashes values : List Nat)
    (keyOpts : List (Option Key)) (mapValues mapAddrs : GMap Key Nat) : Prop :=
  keyOptList mem keySize kaddrs keyOpts ∧ mapValuesAddrs kaddrs keyOpts values mapValues mapAddrs ∧
  hashList hf keyOpts hashes ∧ optNoDups keyOpts ∧ GMap.Distinct mapValues ∧ GMap.Distinct mapAddrs ∧
  keyOpts.length = capacity ∧ optsSize keyOpts ≤ keyOpts.length ∧ optsSize keyOpts = mapValues.length ∧
  mapValues.length = mapAddrs.length

/-- map.c:285-300 `mapp_raw`. -/
def mappRaw (m : Map) (kaddrs hashes : List Nat) (chains : List Int) (values : List Nat) (keySize capacity : Nat) : Prop :=
  m.keySize = keySize ∧ m.capacity = capacity ∧
  kaddrs = m.items.map Item.keyAddr ∧ hashes = m.items.map Item.keyHash ∧ values = m.items.map Item.value ∧
  chains = m.items.map (fun it => (it.chain : Int)) ∧
  capacity = m.items.length ∧ capacity = kaddrs.length ∧ capacity = hashes.length ∧ capacity = values.length ∧
  capacity = chains.length

/-- The condition on the capacity in map.c:307-310 (`mapp`) and 1047-1050; `SIZE_MAX` is that of a 64-bit machine, and
`N63` the natural number 63. -/
def capacityOk (capacity realCapacity : Nat) : Prop :=
  if capacity = 0 then realCapacity = 0
  else realCapacity ≥ capacity ∧ realCapacity ≤ (2 ^ 64 - 1) / 2 + 1 ∧ isPow2 realCapacity 63 ≠ none

/-- map.c:302-310 `mapp`. -/
def mapp (hf : Key → Nat) (mem : Mem) (m : Map) (keySize capacity : Nat) (mapValues mapAddrs : GMap Key Nat) : Prop :=
  ∃ kaddrs hashes chains values realCapacity keyOpts buckets,
    mappRaw m kaddrs hashes chains values keySize realCapacity ∧
    mappCore hf mem keySize realCapacity kaddrs hashes values keyOpts mapValues mapAddrs ∧
    bucketsKeysInsync hf realCapacity chains buckets keyOpts ∧ capacityOk capacity realCapacity

/-- The invariant of the loop of `map_alloc`, map.c:554-558. -/
def allocInv (realCapacity : Nat) (n : Nat) (items : List Item) : Prop :=
  n ≤ realCapacity ∧ items.length = realCapacity ∧
  (∀ a ∈ (take n items).map Item.keyAddr, a = 0) ∧ ∀ c ∈ (take n items).map Item.chain, c = 0

/-- The invariant of the loop of `map_get`, map.c:1041-1052; `key` are the bytes at `key_ptr`. -/
def getInv (hf : Key → Nat) (mem : Mem) (m : Map) (keySize capacity : Nat) (mapValues mapAddrs : GMap Key Nat)
    (keyPtr : Nat) (keyHash : Nat) (i : Nat) : Prop :=
  ∃ kaddrs hashes chains values realCapacity keyOpts buckets,
    mappRaw m kaddrs hashes chains values keySize realCapacity ∧
    mappCore hf mem keySize realCapacity kaddrs hashes values keyOpts mapValues mapAddrs ∧
    bucketsKeysInsync hf realCapacity chains buckets keyOpts ∧
    i ≤ realCapacity ∧ hf (bytesAt mem keyPtr keySize) = keyHash ∧ capacityOk capacity realCapacity ∧
    upTo (byLoopNthProp none keyOpts (fun o => some (bytesAt mem keyPtr keySize) ≠ o) realCapacity
      (loopFp keyHash realCapacity)) i

/-- The invariant of the loop of `map_set`, map.c:1499-1506; `buckets`, `keyOpts` and `realCapacity` are those from before
the loop. `cell_busy` is map.c:1138. -/
def setInv (hf : Key → Nat) (mem : Mem) (m : Map) (keySize realCapacity : Nat) (mapValues mapAddrs : GMap Key Nat)
    (keyOpts : List (Option Key)) (buckets : List (Bucket Key)) (start : Int) (keyPtr : Nat) (i : Nat) : Prop :=
  ∃ kaddrs hashes chains values,
    mappRaw m kaddrs hashes chains values keySize realCapacity ∧
    mappCore hf mem keySize realCapacity kaddrs hashes values keyOpts mapValues mapAddrs ∧
    isPow2 realCapacity 63 ≠ none ∧ keyPtr ≠ 0 ∧ i ≤ realCapacity ∧
    upTo (byLoopNthProp none keyOpts (fun o => o ≠ none) realCapacity start) i ∧
    bucketsKeysInsyncXchain hf realCapacity chains buckets start (loopFp (start + i) realCapacity) keyOpts

/-- The invariant of the loop of `map_remove`, map.c:1810-1822; all but `chains` are those from before the loop. -/
def removeInv (hf : Key → Nat) (mem : Mem) (m : Map) (keySize realCapacity : Nat) (mapValues mapAddrs : GMap Key Nat)
    (kaddrs hashes values : List Nat) (keyOpts : List (Option Key)) (buckets : List (Bucket Key)) (start : Int)
    (keyPtr keyHash : Nat) (i : Nat) : Prop :=
  ∃ chains,
    mappRaw m kaddrs hashes chains values keySize realCapacity ∧
    mappCore hf mem keySize realCapacity kaddrs hashes values keyOpts mapValues mapAddrs ∧
    isPow2 realCapacity 63 ≠ none ∧ i ≤ realCapacity ∧ keyPtr ≠ 0 ∧
    hf (bytesAt mem keyPtr keySize) = keyHash ∧ keyOpts = bucketsGetKeys buckets ∧
    (i : Int) ≤ bucketsGetChain [] buckets (bytesAt mem keyPtr keySize) start ∧
    chains = addPartialChain (loopFp (start + i) realCapacity)
      (bucketsGetChain [] buckets (bytesAt mem keyPtr keySize) start - i)
      (bucketsGetChns (bucketsRemoveKey (bytesAt mem keyPtr keySize) buckets)) ∧
    upTo (byLoopNthProp none keyOpts (fun o => some (bytesAt mem keyPtr keySize) ≠ o) realCapacity start) i

end Verif.MapPred
