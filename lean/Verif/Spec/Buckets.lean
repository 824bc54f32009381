/-
The functions with which the VeriFast proof of /repo/env/src/structs/map.c speaks of hash chains:
/repo/env/include/proof/chain-buckets.gh, nth-prop.gh and stdex.gh.

VeriFast's `int` is the integers and `nat` the natural numbers; `fixpoint bool` functions are propositions here, or `Bool`
where they are passed to `filter`. Of VeriFast's own list.gh and listex.gh, which are not in the repository: `length`,
`append`, `reverse`, `map`, `filter`, `mem`, `distinct`, `forall` and `exists` are those of Lean's lists (`distinct` is
`List.Nodup`), and those with an integer index are written here as VeriFast defines them, by counting the index down to 0
along the list (so that a negative index is never reached).
-/
import Verif.Spec.ProofLib
import Mathlib.Data.List.Nodup

set_option autoImplicit false

namespace Verif.Buckets
open Verif.ProofLib (loopFp)

/-! ### VeriFast's list functions -/

section
variable {α : Type}

/-- list.gh `nth`, of VeriFast; of a list that is too short, an unknown default value. -/
def nth (dflt : α) (n : Int) : List α → α
  | [] => dflt
  | x :: xs => if n = 0 then x else nth dflt (n - 1) xs

/-- list.gh `take`, of VeriFast. -/
def take (n : Int) : List α → List α
  | [] => []
  | x :: xs => if n = 0 then [] else x :: take (n - 1) xs

/-- list.gh `drop`, of VeriFast. -/
def drop (n : Int) : List α → List α
  | [] => []
  | x :: xs => if n = 0 then x :: xs else drop (n - 1) xs

/-- list.gh `update`, of VeriFast. -/
def update (n : Int) (y : α) : List α → List α
  | [] => []
  | x :: xs => if n = 0 then y :: xs else x :: update (n - 1) y xs

/-- list.gh `index_of`, of VeriFast; the length of the list if the element is not there. -/
def indexOf [DecidableEq α] (y : α) : List α → Int
  | [] => 0
  | x :: xs => if x = y then 0 else 1 + indexOf y xs

/-- list.gh `head`, of VeriFast. -/
def head (dflt : α) : List α → α
  | [] => dflt
  | x :: _ => x

/-- list.gh `tail`, of VeriFast, which leaves open the tail of the empty list. -/
def tail (dflt : List α) : List α → List α
  | [] => dflt
  | _ :: xs => xs

/-- list.gh `all_eq`, of VeriFast. -/
def allEq (y : α) : List α → Prop
  | [] => True
  | x :: xs => x = y ∧ allEq y xs

end

/-! ### stdex.gh and nth-prop.gh -/

section
variable {α : Type}

/-- stdex.gh:169-175 `opt_no_dups`. -/
def optNoDups : List (Option α) → Prop
  | [] => True
  | h :: t => optNoDups t ∧ (h = none ∨ h ∉ t)

/-- stdex.gh:250-255 `repeat_n`. -/
def repeatN (x : α) : Nat → List α
  | 0 => []
  | n + 1 => x :: repeatN x n

/-- nth-prop.gh:7-9 `nthProp`. -/
def nthProp (dflt : α) (arr : List α) (prop : α → Prop) (index : Int) : Prop := prop (nth dflt index arr)

/-- nth-prop.gh:11-16 `up_to`. -/
def upTo (prop : Int → Prop) : Nat → Prop
  | 0 => True
  | m + 1 => prop (m : Int) ∧ upTo prop m

/-- nth-prop.gh:71-74 `byLoopNthProp`. -/
def byLoopNthProp (dflt : α) (arr : List α) (prop : α → Prop) (cap shift index : Int) : Prop :=
  nthProp dflt arr prop (loopFp (index + shift) cap)

end

/-! ### chain-buckets.gh -/

section
variable {κ : Type}

/-- chain-buckets.gh:8 `bucket`: the keys whose chains begin here, each with the length of its chain. -/
abbrev Bucket (κ : Type) := List (κ × Nat)

/-- chain-buckets.gh:11-24 `advance_acc`. -/
def advanceAcc : List (κ × Nat) → List (κ × Nat)
  | [] => []
  | (_, 0) :: t => advanceAcc t
  | (k, n + 1) :: t => (k, n) :: advanceAcc t

/-- chain-buckets.gh:26-38 `get_current_key_fp`. -/
def getCurrentKey : List (κ × Nat) → Option κ
  | [] => none
  | (k, 0) :: _ => some k
  | (_, _ + 1) :: t => getCurrentKey t

/-- chain-buckets.gh:40-43 `acc_at_this_bucket`. -/
def accAtThisBucket (acc : List (κ × Nat)) (b : Bucket κ) : List (κ × Nat) := acc ++ b

/-- chain-buckets.gh:45-52 `get_wraparound`. -/
def getWraparound : List (κ × Nat) → List (Bucket κ) → List (κ × Nat)
  | acc, [] => acc
  | acc, h :: t => getWraparound (advanceAcc (accAtThisBucket acc h)) t

/-- chain-buckets.gh:54-67 `buckets_ok_rec`, with stdex.gh:225-229 `nat_lt` and `sup` unfolded. -/
def bucketsOkRec (bound : Int) : List (κ × Nat) → List (Bucket κ) → Prop
  | acc, [] => (acc.map Prod.snd).Nodup ∧ ∀ p ∈ acc, (p.2 : Int) < bound - 1
  | acc, h :: t =>
    ((accAtThisBucket acc h).map Prod.snd).Nodup ∧ (∀ p ∈ accAtThisBucket acc h, (p.2 : Int) < bound) ∧
    bucketsOkRec bound (advanceAcc (accAtThisBucket acc h)) t

/-- chain-buckets.gh:69-71 `not_this_key_pair_fp`. -/
def notThisKeyPair [DecidableEq κ] (k : κ) (p : κ × Nat) : Bool := decide (p.1 ≠ k)

/-- chain-buckets.gh:73-84 `buckets_remove_key_fp`. -/
def bucketsRemoveKey [DecidableEq κ] (k : κ) : List (Bucket κ) → List (Bucket κ)
  | [] => []
  | h :: t => h.filter (notThisKeyPair k) :: bucketsRemoveKey k t

/-- chain-buckets.gh:86-92 `bucket_put_key_fp`; what `nat_of_int` makes of a negative number is left open by VeriFast, and
is 0 here. -/
def bucketPutKey (b : Bucket κ) (k : κ) (dist : Int) : Bucket κ := (k, dist.toNat) :: b

/-- chain-buckets.gh:94-104 `buckets_put_key_fp`. -/
def bucketsPutKey (k : κ) (dist : Int) : Int → List (Bucket κ) → List (Bucket κ)
  | _, [] => []
  | start, h :: t => if start = 0 then bucketPutKey h k dist :: t else h :: bucketsPutKey k dist (start - 1) t

/-- chain-buckets.gh:122-132 `buckets_all_keys_fp`. -/
def bucketsAllKeys : List (Bucket κ) → List κ
  | [] => []
  | h :: t => h.map Prod.fst ++ bucketsAllKeys t

/-- chain-buckets.gh:134-138 `buckets_ok`. -/
def bucketsOk (buckets : List (Bucket κ)) : Prop :=
  (bucketsAllKeys buckets).Nodup ∧ bucketsOkRec buckets.length (getWraparound [] buckets) buckets

/-- chain-buckets.gh:140-150 `buckets_get_chns_rec_fp`. -/
def bucketsGetChnsRec : List (κ × Nat) → List (Bucket κ) → List Int
  | _, [] => []
  | acc, h :: t =>
    ((advanceAcc (accAtThisBucket acc h)).length : Int) :: bucketsGetChnsRec (advanceAcc (accAtThisBucket acc h)) t

/-- chain-buckets.gh:152-154 `buckets_get_chns_fp`. -/
def bucketsGetChns (buckets : List (Bucket κ)) : List Int := bucketsGetChnsRec (getWraparound [] buckets) buckets

/-- chain-buckets.gh:156-166 `buckets_get_keys_rec_fp`. -/
def bucketsGetKeysRec : List (κ × Nat) → List (Bucket κ) → List (Option κ)
  | _, [] => []
  | acc, h :: t => getCurrentKey (accAtThisBucket acc h) :: bucketsGetKeysRec (advanceAcc (accAtThisBucket acc h)) t

/-- chain-buckets.gh:168-170 `buckets_get_keys_fp`. -/
def bucketsGetKeys (buckets : List (Bucket κ)) : List (Option κ) :=
  bucketsGetKeysRec (getWraparound [] buckets) buckets

/-- chain-buckets.gh:306-317 `get_crossing_chains_rec_fp`. -/
def getCrossingChainsRec : List (κ × Nat) → List (Bucket κ) → Int → List (κ × Nat)
  | acc, [], _ => acc
  | acc, h :: t, index =>
    if index = 0 then advanceAcc (accAtThisBucket acc h)
    else getCrossingChainsRec (advanceAcc (accAtThisBucket acc h)) t (index - 1)

/-- chain-buckets.gh:319-324 `get_crossing_chains_fp`. -/
def getCrossingChains (buckets : List (Bucket κ)) (index : Int) : List (κ × Nat) :=
  getCrossingChainsRec (getWraparound [] buckets) buckets index

/-- chain-buckets.gh:475-480 `bucket_has_key_fp`. -/
def bucketHasKey (k : κ) (b : Bucket κ) : Prop := k ∈ b.map Prod.fst

/-- chain-buckets.gh:1048-1058 `add_partial_chain_rec_fp`. -/
def addPartialChainRec : List Int → Int → Int → List Int
  | [], _, _ => []
  | h :: t, start, len =>
    if start = 0 then (if len = 0 then h :: t else (h + 1) :: addPartialChainRec t 0 (len - 1))
    else h :: addPartialChainRec t (start - 1) len

/-- chain-buckets.gh:1060-1069 `add_partial_chain_fp`. -/
def addPartialChain (start len : Int) (cnts : List Int) : List Int :=
  if (cnts.length : Int) < start + len then
    addPartialChainRec (addPartialChainRec cnts start len) 0 (len + start - cnts.length)
  else addPartialChainRec cnts start len

/-- chain-buckets.gh:1071-1081 `chain_with_key_fp`. -/
def chainWithKey [DecidableEq κ] (k : κ) : List (κ × Nat) → Nat
  | [] => 0
  | (key, len) :: t => if key = k then len else chainWithKey k t

/-- chain-buckets.gh:1083-1094 `bucket_get_chain_fp` and `buckets_get_chain_fp`. -/
def bucketsGetChain [DecidableEq κ] (dflt : Bucket κ) (buckets : List (Bucket κ)) (k : κ) (start : Int) : Int :=
  (chainWithKey k (nth dflt start buckets) : Int)

/-- chain-buckets.gh:5558-5560 `empty_buckets_fp`. -/
def emptyBuckets (κ : Type) (len : Nat) : List (Bucket κ) := repeatN [] len

end

end Verif.Buckets
