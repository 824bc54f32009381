/-
Independent specification of token buckets, one for each address, with a capacity and an expiration time, following
/repo/nf/policer/spec-exact.py. Tokens are numbers without a limit, not 64-bit integers.
-/
import Verif.Spec.Expiring

set_option autoImplicit false

namespace Verif.TokenBucket

/-- The tokens in a bucket and when they were last counted. -/
abbrev Buckets := GMap Nat (Nat × Nat)

structure Params where
  capacity : Nat
  expiration : Nat
  rate : Nat
  burst : Nat

/-- The buckets used within the expiration time. -/
def live (q : Params) (now : Nat) (s : Buckets) : Buckets := s.filter fun x => Expiring.fresh q.expiration now x.2.2

/-- spec-exact.py:25-31: the tokens available at a later time. -/
def available (q : Params) (b : Nat × Nat) (now : Nat) : Nat :=
  if now - b.2 < q.burst / q.rate then min q.burst (b.1 + (now - b.2) * q.rate) else q.burst

/-- spec-exact.py:17-37: whether a packet may pass, and the buckets after it. -/
def police (q : Params) (s : Buckets) (now length addr : Nat) : Buckets × Bool :=
  let s := live q now s
  match s.get addr with
  | some b =>
    let tokens := available q b now
    if length < tokens then (s.set addr (tokens - length, now), true) else (s.set addr (tokens, now), false)
  | none => if length ≤ q.burst ∧ s.length < q.capacity then (s.set addr (q.burst - length, now), true) else (s, false)

end Verif.TokenBucket
