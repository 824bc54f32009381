/-
The functions over which the lemmas of the VeriFast proofs are stated:
/repo/env/include/proof/modulo.gh, mod-pow2.gh and bitopsutils.gh. (Those of ghost_map.gh are in Spec/GhostMap.)

VeriFast's `int` is the integers, `nat` the natural numbers; `/` and `%` are those of C, which round towards zero.
The functions of VeriFast's own nat.gh and bitops.gh, which are not in the repository, are written here as the proofs in
bitopsutils.c use them.
-/
import Verif.Spec.GhostMap

set_option autoImplicit false

namespace Verif.ProofLib

/-- nat.gh `pow_nat`, of VeriFast: `pow_nat(x, succ(n)) = x * pow_nat(x, n)`, as bitopsutils.c:85 states it. -/
def powNat (x : Int) : Nat → Int
  | 0 => 1
  | n + 1 => x * powNat x n

/-- nat.gh `nat_predecessor`, of VeriFast, for numbers that are not zero. -/
def natPredecessor (n : Nat) : Nat := n - 1

/-- C's `&` for numbers that are not negative; VeriFast's `&` is that of C, and no lemma is about others. -/
def bitAnd (x y : Int) : Int := ((x.toNat &&& y.toNat : Nat) : Int)

/-- modulo.gh:18-20 `loop_fp`. -/
def loopFp (k capacity : Int) : Int := (k.tmod capacity + capacity).tmod capacity

/-- mod-pow2.gh:8-10 `pow2`. -/
def pow2 (m : Nat) : Int := powNat 2 m

/-- mod-pow2.gh:12-17 `is_pow2`. -/
def isPow2 (x : Int) : Nat → Option Nat
  | 0 => if x = pow2 0 then some 0 else none
  | m + 1 => if x = pow2 (m + 1) then some (m + 1) else isPow2 x m

/-- bitops.gh `bits_of_int`, of VeriFast: what is left of the number, and its lowest `n` bits from the lowest one, as
bitopsutils.c:111 states it. -/
def bitsOfInt (x : Int) : Nat → Int × List Bool
  | 0 => (x, [])
  | n + 1 => ((bitsOfInt (x.tdiv 2) n).1, decide (x.tmod 2 = 1) :: (bitsOfInt (x.tdiv 2) n).2)

/-- bitops.gh `int_of_bits`, of VeriFast. -/
def intOfBits (k : Int) : List Bool → Int
  | [] => k
  | b :: bs => 2 * intOfBits k bs + (if b then 1 else 0)

/-- bitopsutils.gh:9-17 `bits_of_int_and`. -/
def bitsOfIntAnd : List Bool → List Bool → List Bool
  | [], ys => ys
  | x :: xs, [] => x :: xs
  | x :: xs, y :: ys => (x && y) :: bitsOfIntAnd xs ys

/-- ghost_map.gh:410 `_bounds_check`. -/
def boundsCheck (a n b : Int) : Bool := decide (a ≤ n) && decide (n < b)

end Verif.ProofLib
