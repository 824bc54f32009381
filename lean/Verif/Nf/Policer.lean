/-
Model of /repo/nf/policer/policer.c.

The state is the address table and the array of buckets; the WAN device, rate and
burst are fixed by nf_init. See Verif.Nf.Table for how the map and pool are
represented. Arithmetic on sizes and times is modulo 2^64. An out-of-bounds bucket
access is the result `none`.
-/
import Verif.Nf.Table
import Verif.Nf.Packet

set_option autoImplicit false

namespace Verif.Nf.Policer

/-- policer.c:8-11 `struct policer_bucket`. -/
structure Bucket where
  size : Nat
  time : Nat
deriving DecidableEq, Repr

/-- policer.c:13-15. -/
structure Config where
  wanDevice : Nat
  rate : Nat
  burst : Nat

/-- policer.c:16-19. -/
structure State where
  table : Table Nat
  buckets : List Bucket

/-- policer.c:21-42 `nf_init` after reading the configuration; `none` also stands for
`return false`. -/
def init (c : Config) (maxFlows : Nat) : Option State :=
  if c.rate = 0 ∨ c.burst = 0 then none
  else do
    let table ← Table.alloc 0 maxFlows (1000000000 * c.burst % 2 ^ 64 / c.rate)
    some { table := table, buckets := List.replicate maxFlows ⟨0, 0⟩ }

/-- policer.c:57-65: the bucket's size after adding what accrued until `time`. -/
def refill (c : Config) (b : Bucket) (time : Nat) : Nat :=
  let timeDiff := (2 ^ 64 + time - b.time) % 2 ^ 64
  if timeDiff < c.burst / c.rate then
    let size := (b.size + timeDiff * c.rate % 2 ^ 64) % 2 ^ 64
    if size > c.burst then c.burst else size
  else c.burst

/-- policer.c:56-73: a packet to a known address; the flag says whether it conforms. -/
def known (c : Config) (s : State) (time length index : Nat) : Option (State × Bool) := do
  let table ← s.table.refresh time index
  let b ← s.buckets[index]?
  let size := refill c b time
  if size > length then some (⟨table, s.buckets.set index ⟨size - length, time⟩⟩, true)
  else some (⟨table, s.buckets.set index ⟨size, time⟩⟩, false)

/-- policer.c:75-93: a packet to an unknown address. -/
def unknown (c : Config) (s : State) (time length addr : Nat) : Option (State × Bool) :=
  if length > c.burst then some (s, false)
  else do
    match ← s.table.insert time addr with
    | (table, none) => some ({ s with table := table }, false)
    | (table, some index) =>
      if index < s.buckets.length then
        some (⟨table, s.buckets.set index ⟨c.burst - length, time⟩⟩, true)
      else none

/-- policer.c:55-94: the policing of a packet from the WAN. -/
def police (c : Config) (s : State) (time length addr : Nat) : Option (State × Bool) :=
  match s.table.map.get addr with
  | some index => known c s time length index
  | none => unknown c s time length addr

/-- policer.c:44-98 `nf_handle`. The destination address is at offset 16. -/
def handle (c : Config) (s : State) (p : Packet) : Option (State × List Out) :=
  match getIpv4Header p.data (getEtherHeader p) with
  | none => some (s, [])
  | some ip =>
    if p.device = c.wanDevice then do
      match ← police c s p.time p.length (ld32 p.data (ip + 16)) with
      | (s, true) => some (s, [.transmit p (otherDevice p) false])
      | (s, false) => some (s, [])
    else some (s, [.transmit p (otherDevice p) false])

/-- A packet sequence. -/
def run (c : Config) : State → List Packet → Option (State × List (List Out))
  | s, [] => some (s, [])
  | s, p :: ps => do
    let (s, o) ← handle c s p
    let (s, os) ← run c s ps
    some (s, o :: os)

end Verif.Nf.Policer
