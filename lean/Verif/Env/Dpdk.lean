/-
Model of the packet runtime on DPDK, /repo/env/src/net/dpdk/main.c:15-108, 149-166: the
functions of tx.h and the main loop, with the buffers (mbufs) of the pool.

Simplifications.
* A buffer is its number; its contents (bytes and length) are an abstract type `D`. What
  `handle_flags` writes for a device (main.c:69-78) is the function `update`.
* The calls that `nf_handle` makes are a list, after which the contents are those at its
  end; `packet->device` is not changed by the network function. `BATCH_SIZE` is below 2^15, so that the counters do not wrap.
* DPDK is as documented: rte_eth_rx_burst gives at most as many buffers as asked for, all
  different and taken from the pool; rte_eth_tx_burst takes some of the first ones given to
  it, and the card returns them to the pool later; rte_pktmbuf_free returns a buffer at
  once; `bufs[n]->port` is the device it was received on. This is part of what is trusted.
* Accesses out of the bounds of an array are the result `none`.
-/

set_option autoImplicit false

namespace Verif.Dpdk

/-- main.c:23 `MAX_DEVICES`. -/
abbrev maxDevices : Nat := 2

/-- A call of tx.h. -/
inductive Call
  | transmit (device : Nat) (update : Bool)
  | flood (update : Bool)
  | floodExcept (disabled : List Bool) (update : Bool)

/-- `nf_handle`: from the state of the network function, the contents, the time and the
device of a packet, the new state, contents and the calls of tx.h. -/
abbrev Handler (σ D : Type) := σ → D → Nat → Nat → σ × D × List Call

/-- Everything that does not change. -/
structure Config (σ D : Type) where
  /-- main.c:27 `devices_count`. -/
  devices : Nat
  /-- main.c:19 `BATCH_SIZE`. -/
  batch : Nat
  handler : Handler σ D
  /-- The contents after writing the addresses of a device and its endpoint. -/
  update : Nat → D → D

/-- The state of the runtime, the pool and the cards. -/
structure St (σ D : Type) where
  nf : σ
  /-- Contents of each buffer. -/
  buf : Nat → D
  /-- Buffers with which packets can be received. -/
  pool : List Nat
  /-- Buffers of packets that cards are sending. -/
  card : List Nat
  /-- main.c:31-32: the first `bufs_to_tx_count[d]` entries of `bufs_to_tx[d]`. -/
  toTx : Nat → List Nat
  /-- Everything given to the card of device `d` so far: contents. -/
  sent : Nat → List D

/-- Change one entry of an array. -/
def upd {α : Type} (f : Nat → α) (i : Nat) (v : α) : Nat → α := fun j => if j = i then v else f j

variable {σ D : Type}

/-- main.c:83-85, 92-94, 103-105: `handle_flags` and appending the buffer `m` to the array of a device. -/
def enqueue (c : Config σ D) (s : St σ D) (m device : Nat) (update : Bool) : Option (St σ D) :=
  if device < maxDevices then
    if (s.toTx device).length < c.batch then
      some { s with
        buf := if update then upd s.buf m (c.update device (s.buf m)) else s.buf
        toTx := upd s.toTx device (s.toTx device ++ [m]) }
    else none
  else none

/-- main.c:88-108 `net_flood` and `net_flood_except`, from device `n` on, `k` more times. -/
def floodLoop (c : Config σ D) (m input : Nat) (update : Bool) (disabled : Option (List Bool)) :
    (k n : Nat) → St σ D → Option (St σ D)
  | 0, _, s => some s
  | k + 1, n, s => do
    let off ← (if input = n then some true else match disabled with | none => some false | some l => l[n]?)
    let s ← (if off then some s else enqueue c s m n update)
    floodLoop c m input update disabled k (n + 1) s

/-- One call of tx.h for the packet in buffer `m`. -/
def call (c : Config σ D) (m input : Nat) (s : St σ D) : Call → Option (St σ D)
  | .transmit device update => enqueue c s m device update
  | .flood update => floodLoop c m input update none c.devices 0 s
  | .floodExcept disabled update => floodLoop c m input update (some disabled) c.devices 0 s

/-- All calls of tx.h for the packet in buffer `m`. -/
def calls (c : Config σ D) (m input : Nat) : List Call → St σ D → Option (St σ D)
  | [], s => some s
  | x :: xs, s => do
    let s ← call c m input s x
    calls c m input xs s

/-- main.c:154-156: one packet; it is in buffer `m`. -/
def handleOne (c : Config σ D) (input m time : Nat) (s : St σ D) : Option (St σ D) :=
  let r := c.handler s.nf (s.buf m) time input
  calls c m input r.2.2 { s with
    nf := r.1
    buf := upd s.buf m r.2.1 }

/-- A received packet: its buffer and contents, and the time at which it is handled. -/
structure Rx (D : Type) where
  m : Nat
  data : D
  time : Nat

/-- main.c:153-157: the packets of a batch. -/
def handleAll (c : Config σ D) (input : Nat) : List (Rx D) → St σ D → Option (St σ D)
  | [], s => some s
  | r :: rs, s => do
    let s ← handleOne c input r.m r.time s
    handleAll c input rs s

/-- main.c:159-163: sending on one device, of which DPDK takes `accept` packets if there are that many. -/
def sendOne (device accept : Nat) (s : St σ D) : St σ D :=
  let l := s.toTx device
  { s with
    sent := upd s.sent device (s.sent device ++ (l.take accept).map s.buf)
    card := s.card ++ l.take accept
    pool := s.pool ++ l.drop accept
    toTx := upd s.toTx device [] }

/-- main.c:158-164: sending on the devices from `n` on, `k` more times. -/
def sendAll (accept : Nat → Nat) : (k n : Nat) → St σ D → St σ D
  | 0, _, s => s
  | k + 1, n, s => sendAll accept k (n + 1) (sendOne n (accept n) s)

/-- The contents after receiving. -/
def fill (buf : Nat → D) : List (Rx D) → Nat → D
  | [] => buf
  | r :: rs => fill (upd buf r.m r.data) rs

/-- main.c:151-164: the body of the loops for the device `input`. -/
def iteration (c : Config σ D) (input : Nat) (rx : List (Rx D)) (accept : Nat → Nat) (s : St σ D) : Option (St σ D) := do
  let s ← handleAll c input rx { s with
    buf := fill s.buf rx
    pool := s.pool.filter fun m => !(rx.map Rx.m).contains m }
  some (sendAll accept c.devices 0 s)

/-- What rte_eth_rx_burst may return. -/
def Receivable (c : Config σ D) (s : St σ D) (rx : List (Rx D)) : Prop :=
  rx.length ≤ c.batch ∧ (rx.map Rx.m).Nodup ∧ ∀ r ∈ rx, r.m ∈ s.pool

/-- One step: an iteration of the main loop, or a card that has sent a packet returns its buffer. -/
inductive Step (c : Config σ D) : St σ D → St σ D → Prop
  | iterate (s t : St σ D) (input : Nat) (rx : List (Rx D)) (accept : Nat → Nat) : input < c.devices →
      Receivable c s rx → iteration c input rx accept s = some t → Step c s t
  | complete (s : St σ D) (l l' : List Nat) (m : Nat) : s.card = l ++ m :: l' →
      Step c s { s with card := l ++ l', pool := m :: s.pool }

/-- Zero or more steps. -/
inductive Steps (c : Config σ D) (s : St σ D) : St σ D → Prop
  | refl : Steps c s s
  | step {t u : St σ D} : Steps c s t → Step c t u → Steps c s u

/-- main.c:129-147: after the set-up, with `n` buffers. -/
def start (nf : σ) (buf : Nat → D) (n : Nat) : St σ D where
  nf := nf
  buf := buf
  pool := List.range n
  card := []
  toTx := fun _ => []
  sent := fun _ => []

end Verif.Dpdk
