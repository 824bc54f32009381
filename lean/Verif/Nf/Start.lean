/-
Model of how a program starts: `nf_init` of the network functions from the configuration table to the blocks of memory they ask for
(/repo/nf/*, /repo/env/src/structs), and `main` of /repo/env/src/net/tinynf/main.c:63-97 around it.

Simplifications (whole file):
* What the blocks are filled with is in the models of the network functions and data structures; here is only what is read from the
  configuration, what is asked of the allocator (Verif.Env.MemoryAlloc) and whether the program goes on.
* A halt of the allocator is the result `none`; `return false` of nf_init is `some none`.
* The DHCP server is in Verif.Nf.Dhcp; the Rust policer in Verif.Nf.RustPolicer. `lpm_alloc` (structs/lpm.h) has no implementation, so
  that the router asks for no memory here.
* The number of devices fits into the 16 bits of `device_t`.
-/
import Verif.Env.HashMap
import Verif.Env.IxgbeSetup
import Verif.Nf.RustPolicer

set_option autoImplicit false

namespace Verif.Start
open Verif.Nf.RustPolicer (name)

/-- config.c:8 `items`. -/
abbrev Items := List (List UInt8 × Nat)

/-- /repo/env/include/net/skeleton.h:30-38 `os_config_get_device`. `devices_count - 1` is an `int`, passed as 64 bits: with no devices
the limit is the largest number. -/
def getDevice (items : Items) (n : List UInt8) (devices : Nat) : Option (Option Nat) := do
  match ← Config.get items n 0 ((devices + (2 ^ 64 - 1)) % 2 ^ 64) with
  | none => some none
  | some v => some (some (v % 2 ^ 16))

/-- The functions with which nf_init reads values: config.h:31-80 and skeleton.h:30-38. -/
inductive Kind where
  | u64 | u32 | u16 | size | time | device
deriving DecidableEq, Repr

/-- One call of such a function. -/
def readOne (items : Items) (devices : Nat) : Kind → List UInt8 → Option (Option Nat)
  | .u64, n => Config.getU64 items n
  | .u32, n => Config.getU32 items n
  | .u16, n => Config.getU16 items n
  | .size, n => Config.getSize items n
  | .time, n => Config.getTime items n
  | .device, n => getDevice items n devices

/-- `!os_config_get_a(…) || !os_config_get_b(…) || …`: calls until one returns false. -/
def readAll (items : Items) (devices : Nat) : List (Kind × String) → Option (Option (List Nat))
  | [] => some (some [])
  | (k, s) :: rest => do
    match ← readOne items devices k (name s) with
    | none => some none
    | some v =>
      match ← readAll items devices rest with
      | none => some none
      | some vs => some (some (v :: vs))

/-- The network functions in C of /repo/nf but the DHCP server. -/
inductive Nf where
  | nop | bridge | firewall | nat | policer | maglev | router
deriving DecidableEq, Repr

/-- The number of devices that nf_init asks for: bridge.c:17, firewall.c:12, nat.c:13, policer.c:23, maglev.c:14; nop.c and router.c do
not look at it. -/
def countOk : Nf → Nat → Bool
  | .nop, _ => true
  | .bridge, n => !(n < 2)
  | .firewall, n => !(n != 2)
  | .nat, n => !(n != 2)
  | .policer, n => !(n != 2)
  | .maglev, n => !(n < 2)
  | .router, _ => true

/-- What is read, in order: nop.c:8, bridge.c:25-26, firewall.c:18, nat.c:20-21, policer.c:28-29, maglev.c:23-24, router.c:12. -/
def reads : Nf → List (Kind × String)
  | .nop => [(.device, "wan device"), (.device, "lan device")]
  | .bridge => [(.u64, "bid"), (.time, "expiration time"), (.size, "capacity"), (.time, "stp update time")]
  | .firewall => [(.device, "external device"), (.time, "expiration time"), (.size, "max flows")]
  | .nat => [(.u32, "external addr"), (.device, "wan device"), (.size, "max flows"), (.time, "expiration time"), (.u16, "start port")]
  | .policer => [(.device, "wan device"), (.u64, "rate"), (.u64, "burst"), (.size, "max flows")]
  | .maglev => [(.size, "flow capacity"), (.u16, "cht height"), (.time, "backend expiration time"), (.time, "flow expiration time")]
  | .router => [(.size, "capacity")]

/-- What is asked of the values read: nop.c:8, policer.c:33-35, maglev.c:29-34 (`MAX_CHT_HEIGHT` is 40000, structs/cht.h:9). -/
def valuesOk : Nf → Nat → List Nat → Bool
  | .nop, _, [wan, lan] => lan != wan
  | .policer, _, [_, rate, burst, _] => !(rate == 0 || burst == 0)
  | .maglev, n, [_, height, _, _] => !(height == 0 || height ≥ 40000) && !(n - 1 ≥ height)
  | _, _, _ => true

/-- map.c:531-611 `map_alloc`: a `struct map` (lines 168-172, 24 bytes) and `struct map_item`s (lines 31-37, 32 bytes). -/
def mapBlocks (capacity : Nat) : Option (List (Nat × Nat)) := do
  let rc ← HashMap.getRealCapacity capacity
  some [(1, 24), (rc, 32)]

/-- index_pool.c:84-92 `index_pool_alloc`: a `struct index_pool` (lines 9-14, 32 bytes) and times. -/
def poolBlocks (size : Nat) : List (Nat × Nat) := [(1, 32), (size, 8)]

/-- cht.c:7-27 `cht_alloc`: a `struct cht` (cht.h:11-16, 16 bytes), `data`, `permutations` and `next`. The product of the two 16-bit
numbers is an `int`; they are below 40000 and the second is below the first. -/
def chtBlocks (height backends : Nat) : List (Nat × Nat) :=
  [(1, 16), (height * backends, 2), (height * backends, 2), (height, 8)]

/-- The blocks that nf_init asks for, as count and size: bridge.c:31-36 with spanning_tree.h:33-41 (32 bytes of state),
firewall/flow_table.h:27-34 (a table of 24 bytes, flows of 16), nat/flow_table.h:30-40 (a table of 40 bytes), policer.c:37-40
(buckets of 16), maglev/balancer.h:32-43 (a balancer of 48 bytes). -/
def blocks : Nf → Nat → List Nat → Option (List (Nat × Nat))
  | .bridge, n, [_, _, cap, _] => do
    let m ← mapBlocks cap
    some ([(n, 1), (1, 32), (cap, 6), (cap, 2)] ++ m ++ poolBlocks cap)
  | .firewall, _, [_, _, flows] => do
    let m ← mapBlocks flows
    some ([(1, 24), (flows, 16)] ++ m ++ poolBlocks flows)
  | .nat, _, [_, _, flows, _, _] => do
    let m ← mapBlocks flows
    some ([(1, 40), (flows, 16)] ++ m ++ poolBlocks flows)
  | .policer, _, [_, _, _, flows] => do
    let m ← mapBlocks flows
    some ([(flows, 16), (flows, 4)] ++ m ++ poolBlocks flows)
  | .maglev, n, [flows, height, _, _] => do
    let m ← mapBlocks flows
    some ([(1, 48)] ++ m ++ poolBlocks flows ++ [(flows, 16), (flows, 2)] ++ poolBlocks (n - 1) ++ chtBlocks height (n - 1))
  | _, _, _ => some []

/-- Calls of `os_memory_alloc` in order: the addresses, and the allocator afterwards. -/
def allocAll : MemoryAlloc.State → List (Nat × Nat) → Option (List Nat × MemoryAlloc.State)
  | s, [] => some ([], s)
  | s, (count, size) :: rest => do
    let (a, s) ← MemoryAlloc.alloc s count size
    let (as, s) ← allocAll s rest
    some (a :: as, s)

/-- The values read, the addresses given and the allocator after nf_init. -/
structure Started where
  values : List Nat
  addrs : List Nat
  mem : MemoryAlloc.State

/-- `nf_init`: nop.c:6-9, bridge.c:15-37, firewall.c:10-24, nat.c:11-27, policer.c:21-42, maglev.c:12-38, router.c:9-19. -/
def nfInit (nf : Nf) (items : Items) (devices : Nat) (s : MemoryAlloc.State) : Option (Option Started) :=
  if !countOk nf devices then some none
  else do
    match ← readAll items devices (reads nf) with
    | none => some none
    | some vs =>
      if !valuesOk nf devices vs then some none
      else do
        let bs ← blocks nf devices vs
        let (as, s) ← allocAll s bs
        some (some ⟨vs, as, s⟩)

/-- main.c:63-97 `main` until packets are received: `some none` is the exit with status 1. The blocks of `os_pci_enumerate` (pci.c:7-12,
8 bytes per address), `devices` (network.h:21-26, 16 bytes), the addresses (6 bytes) and the agents (network.h:33-42, 64 bytes).
`regs` are the registers of the cards after main.c:83-92. -/
def start (nf : Nf) (items : Items) (devices : Nat) (phys : Nat → Nat) (regs : Nat → IxgbeRegs.Regs) (s : MemoryAlloc.State) :
    Option (Option (Started × List IxgbeSetup.Agent)) := do
  let (_, s) ← MemoryAlloc.alloc s devices 8
  match ← nfInit nf items devices s with
  | none => some none
  | some st =>
    let (_, s) ← allocAll st.mem [(devices, 16), (devices, 6), (devices, 6), (devices, 64)]
    let (agents, _) ← IxgbeSetup.setup phys ⟨s, regs, fun _ => false, fun _ => false⟩ devices
    some (some (st, agents))

/-- The tables in /repo/nf/*/config. -/
def shipped : Nf → Items
  | .nop => [(name "wan device", 0), (name "lan device", 1)]
  | .bridge => [(name "bid", 0), (name "expiration time", 4000 * 1000 * 1000), (name "capacity", 131072),
      (name "stp update time", 1000 * 1000 * 1000 * 1000 * 1000)]
  | .firewall => [(name "external device", 1), (name "expiration time", 4000 * 1000 * 1000), (name "max flows", 65536)]
  | .nat => [(name "wan device", 1), (name "expiration time", 4 * 1000 * 1000 * 1000), (name "max flows", 65536),
      (name "external addr", 0), (name "start port", 0)]
  | .policer => [(name "wan device", 0), (name "max flows", 65536), (name "rate", 1000 * 1000 * 1000 * 1000 * 1000),
      (name "burst", 1000 * 1000 * 1000 * 1000 * 1000)]
  | .maglev => [(name "flow capacity", 65536), (name "cht height", 97), (name "flow expiration time", 4 * 1000 * 1000 * 1000),
      (name "backend expiration time", 1000 * 1000 * 1000 * 1000 * 1000)]
  | .router => [(name "empty", 0)]

end Verif.Start
