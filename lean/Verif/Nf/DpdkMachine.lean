/-
A network function on the runtime for DPDK: /repo/env/src/net/dpdk/main.c:66-108, 149-166, with the clock.

Simplifications.
* A buffer holds bytes and `data_len`, which the network function cannot reach: `packet->length` is a copy of it
  (main.c:155) that is not copied back.
* The contents when a function of tx.h is called are those in the request; with several requests for one packet, those of
  the last one count, as they are all of the same buffer.
* An iteration may be of any device, while the loop takes them in turn; so all that the loop does is among the runs here.
* The result `none` of the network function (an access out of bounds) leaves the state `none`.
* DPDK is as in Verif.Env.Dpdk; the clock does not go backwards.
-/
import Verif.Env.Dpdk
import Verif.Nf.Runtime

set_option autoImplicit false

namespace Verif.Nf.DpdkMachine
open Verif.Nf.Runtime (stMac)
open Verif.Dpdk

/-- What is in a buffer: the bytes and their number. -/
abbrev Buf := Mem × Nat

/-- main.c:66: the address of the endpoint of a device. -/
def endpointAddr (device : Nat) : List UInt8 := [UInt8.ofNat device, 0, 0, 0, 0, 0]

/-- main.c:69-78 `handle_flags` with UPDATE_ETHER_ADDRS; `addrs` are the addresses of the devices (main.c:64). -/
def update (addrs : Nat → List UInt8) (device : Nat) (b : Buf) : Buf :=
  (stMac (stMac b.1 6 (addrs device)) 0 (endpointAddr device), b.2)

/-- The call of tx.h of a request. -/
def callOf : Out → Call
  | .transmit _ device update => .transmit device update
  | .flood _ update => .flood update
  | .floodExcept _ disabled update => .floodExcept disabled update

/-- The bytes of the packet when a request is made. -/
def dataOf : Out → Mem
  | .transmit p _ _ => p.data
  | .flood p _ => p.data
  | .floodExcept p _ _ => p.data

/-- main.c:154-155: the packet that the network function is given. -/
def packetOf (b : Buf) (time device : Nat) : Packet := { data := b.1, length := b.2, time := time, device := device }

/-- main.c:154-156: the network function. -/
def handler {S : Type} (handle : S → Packet → Option (S × List Out)) : Handler (Option S) Buf := fun s b time device =>
  match s with
  | none => (none, b, [])
  | some s =>
    match handle s (packetOf b time device) with
    | none => (none, b, [])
    | some (s, outs) => (some s, (((outs.getLast?).map dataOf).getD b.1, b.2), outs.map callOf)

/-- The program: `n` devices and batches of size `batch`. -/
def config {S : Type} (n batch : Nat) (addrs : Nat → List UInt8) (handle : S → Packet → Option (S × List Out)) :
    Config (Option S) Buf :=
  { devices := n, batch := batch, handler := handler handle, update := update addrs }

/-- The machine: the runtime, the clock, and what rte_eth_rx_burst has returned for each device. -/
structure M (S : Type) where
  st : St (Option S) Buf
  now : Nat
  received : Nat → List Buf

/-- One step; if `full` is true, cards take all packets they are given. -/
inductive Step {S : Type} (c : Config (Option S) Buf) (full : Bool) : M S → M S → Prop
  /-- main.c:151-164. -/
  | iterate (m : M S) (t : St (Option S) Buf) (now input : Nat) (rx : List (Rx Buf)) (accept : Nat → Nat) :
      input < c.devices → Receivable c m.st rx → (m.now :: rx.map Rx.time ++ [now]).Pairwise (· ≤ ·) →
      (full = true → ∀ d, c.batch ≤ accept d) → iteration c input rx accept m.st = some t →
      Step c full m { st := t, now := now, received := upd m.received input (m.received input ++ rx.map Rx.data) }
  /-- A card has sent a packet. -/
  | complete (m : M S) (l l' : List Nat) (b : Nat) : m.st.card = l ++ b :: l' →
      Step c full m { m with st := { m.st with card := l ++ l', pool := b :: m.st.pool } }

/-- Zero or more steps. -/
inductive Steps {S : Type} (c : Config (Option S) Buf) (full : Bool) (m : M S) : M S → Prop
  | refl : Steps c full m m
  | step {t u : M S} : Steps c full m t → Step c full t u → Steps c full m u

/-- main.c:129-147: after the set-up, with `k` buffers. -/
def begin {S : Type} (s0 : S) (now : Nat) (buf : Nat → Buf) (k : Nat) : M S :=
  { st := start (some s0) buf k, now := now, received := fun _ => [] }

end Verif.Nf.DpdkMachine
