/-
Model of the packet processing of the driver, /repo/env/src/net/tinynf/ixgbe.c:1174-1263,
running concurrently with the network cards.

One agent: one input device and `outs` output devices. The agent's memory (packet buffers,
descriptor rings, transmit heads) is shared with the cards, which act at any time between
two accesses of the agent. The data sheet's behaviour of the cards is in the last section;
it is not code of the repository and is part of what is trusted.

Simplifications.
* Packet contents are an abstract type `D`; buffer `k` is the one at
  `agent->buffer + PACKET_BUFFER_SIZE * k`, and descriptor `k` of each ring points to it
  (ixgbe.c:980-987, which nothing changes later).
* The handler is one step on the buffer, the lengths and the state `σ` of the network
  function. It cannot write outside of the lengths array.
* The processor is little-endian, so `le_to_cpu64` and the like are the identity.
* `lengths` is total; only the entries below `outs` exist.
* Other agents have their own memory and queues (C56), so they are not in the state.
-/

set_option autoImplicit false

namespace Verif.Ixgbe

/-- ixgbe.c:342 `IXGBE_RING_SIZE`. -/
abbrev ringSize : Nat := 256
/-- ixgbe.c:348 `IXGBE_AGENT_FLUSH_PERIOD`. -/
abbrev flushPeriod : Nat := 8
/-- ixgbe.c:353 `IXGBE_AGENT_RECYCLE_PERIOD`. -/
abbrev recyclePeriod : Nat := 64

/-- A packet handler (network.h:57): from the state of the network function, the packet, its
length and the array of output lengths, the new state, packet and array. -/
abbrev Handler (σ D : Type) := σ → D → Nat → (Nat → Nat) → σ × D × (Nat → Nat)

/-- Where the agent is in `tn_run_peragent`; `fc` is `flush_counter`. -/
inductive Pc
  /-- ixgbe.c:1184-1193, the loop condition and reading the descriptor. -/
  | poll (fc : Nat)
  /-- ixgbe.c:1196-1199, about to call the handler. -/
  | handle (fc len : Nat)
  /-- ixgbe.c:1232-1235, about to write the descriptor of output `n`. -/
  | writeDesc (fc n : Nat) (rs : Bool)
  /-- ixgbe.c:1238-1242. -/
  | advance (fc : Nat) (rs : Bool)
  /-- ixgbe.c:1247-1254, about to read the head of output `n`. -/
  | readHead (fc n earliest minDiff : Nat)
  /-- ixgbe.c:1255. -/
  | writeTail (fc earliest : Nat)
  /-- ixgbe.c:1258-1262, about to write the tail of output `n`. -/
  | flush (n : Nat)

/-- The state of the agent, its memory and the registers of the queues it uses. -/
structure St (σ D : Type) where
  pc : Pc
  /-- State of the network function. -/
  nf : σ
  /-- `agent->buffer`. -/
  buf : Nat → D
  /-- `agent->rings[n][k].metadata`. -/
  ring : Nat → Nat → BitVec 64
  /-- `agent->lengths`. -/
  lengths : Nat → Nat
  /-- `agent->processed_delimiter`. -/
  pd : Nat
  /-- `agent->transmit_heads[n * TRANSMIT_HEAD_MULTIPLIER]`. -/
  heads : Nat → Nat
  /-- Receive head, private to the card. -/
  rdh : Nat
  /-- `*agent->receive_tail_addr`. -/
  rdt : Nat
  /-- Transmit head of each queue, private to the card. -/
  tdh : Nat → Nat
  /-- `*agent->transmit_tail_addrs[n]`. -/
  tdt : Nat → Nat
  /-- Transmit head to be written back next, private to the card. -/
  reported : Nat → Nat
  /-- Everything received so far: contents and length. -/
  received : List (D × Nat)
  /-- Everything taken from the ring of output `n` so far: contents and length. -/
  sent : Nat → List (D × Nat)

/-- Change one entry of an array. -/
def upd {α : Type} (f : Nat → α) (i : Nat) (v : α) : Nat → α := fun j => if j = i then v else f j

/-- ixgbe.c:1233: the metadata of a transmit descriptor. -/
def txMeta (len : Nat) (rs : Bool) : BitVec 64 :=
  BitVec.ofNat 64 len ||| (if rs then 1#64 <<< 27 else 0#64) ||| 1#64 <<< 25 ||| 1#64 <<< 24

/-- ixgbe.c:1191: the flag that tells that a packet was received. -/
def done (m : BitVec 64) : Bool := m.getLsbD 32

/-- ixgbe.c:1196, and the length field the card reads (data sheet, 7.2.3.2.2). -/
def lenOf (m : BitVec 64) : Nat := m.toNat % 2 ^ 16

/-- The next access of `tn_run_peragent`. When it returns, `foreach_index_forever` calls it
again (/repo/env/src/verif/drivers.c:11-18). -/
def agentStep {σ D : Type} (outs : Nat) (h : Handler σ D) (s : St σ D) : St σ D :=
  match s.pc with
  | .poll fc =>
    if fc < flushPeriod then
      let m := s.ring 0 s.pd
      if done m then { s with pc := .handle fc (lenOf m) }
      else if fc ≠ 0 then { s with pc := .flush 0 }
      else { s with pc := .poll 0 }
    else { s with pc := .flush 0 }
  | .handle fc len =>
    let r := h s.nf (s.buf s.pd) len s.lengths
    { s with
      nf := r.1
      buf := upd s.buf s.pd r.2.1
      lengths := fun n => if n < outs then r.2.2 n else s.lengths n
      pc := .writeDesc fc 0 (s.pd &&& (recyclePeriod - 1) == recyclePeriod - 1) }
  | .writeDesc fc n rs =>
    if n < outs then
      { s with
        ring := upd s.ring n (upd (s.ring n) s.pd (txMeta (s.lengths n) rs))
        lengths := upd s.lengths n 0
        pc := .writeDesc fc (n + 1) rs }
    else { s with pc := .advance fc rs }
  | .advance fc rs =>
    let pd := (s.pd + 1) &&& (ringSize - 1)
    { s with pd := pd, pc := if rs then .readHead fc 0 pd (2 ^ 64 - 1) else .poll (fc + 1) }
  | .readHead fc n earliest minDiff =>
    if n < outs then
      let head := s.heads n
      let diff := (head + 2 ^ 64 - s.pd) % 2 ^ 64
      if diff ≤ minDiff then { s with pc := .readHead fc (n + 1) head diff }
      else { s with pc := .readHead fc (n + 1) earliest minDiff }
    else { s with pc := .writeTail fc earliest }
  | .writeTail fc earliest =>
    { s with rdt := (earliest + 2 ^ 32 - 1) % 2 ^ 32 &&& (ringSize - 1), pc := .poll (fc + 1) }
  | .flush n =>
    if n < outs then { s with tdt := upd s.tdt n s.pd, pc := .flush (n + 1) }
    else { s with pc := .poll 0 }

/-- After `tn_agent_init`: all memory is zero (os/memory.h), the queues are enabled with
equal heads and tails, and the receive tail is written (ixgbe.c:1107). -/
def start {σ D : Type} (nf : σ) (buf : Nat → D) : St σ D where
  pc := .poll 0
  nf := nf
  buf := buf
  ring := fun _ _ => 0
  lengths := fun _ => 0
  pd := 0
  heads := fun _ => 0
  rdh := 0
  rdt := ringSize - 1
  tdh := fun _ => 0
  tdt := fun _ => 0
  reported := fun _ => 0
  received := []
  sent := fun _ => []

/-! ### The cards

Data sheet sections 7.1.9 (receive descriptor queue), 7.2.3.3 (transmit descriptor ring) and
7.2.3.5.2 (head write back), as far as the comments of ixgbe.c quote or use them. -/

/-- One step of the whole system. -/
inductive Step {σ D : Type} (outs : Nat) (h : Handler σ D) : St σ D → St σ D → Prop
  | agent (s : St σ D) : Step outs h s (agentStep outs h s)
  /-- The input card writes anything to the buffer of the descriptor at its head. -/
  | fill (s : St σ D) (d : D) : s.rdh ≠ s.rdt → Step outs h s { s with buf := upd s.buf s.rdh d }
  /-- The input card has received a packet: it writes the descriptor back, with the "done"
  flag and the length, and moves its head. -/
  | complete (s : St σ D) (m : BitVec 64) : s.rdh ≠ s.rdt → done m = true →
      Step outs h s { s with
        ring := upd s.ring 0 (upd (s.ring 0) s.rdh m)
        rdh := (s.rdh + 1) % ringSize
        received := s.received ++ [(s.buf s.rdh, lenOf m)] }
  /-- The card of output `n` sends the packet of the descriptor at its head, and moves its
  head; it reports the new head if the descriptor asks for that (bit 27). -/
  | send (s : St σ D) (n : Nat) : n < outs → s.tdh n ≠ s.tdt n →
      Step outs h s { s with
        sent := upd s.sent n (s.sent n ++ [(s.buf (s.tdh n), lenOf (s.ring n (s.tdh n)))])
        tdh := upd s.tdh n ((s.tdh n + 1) % ringSize)
        reported := if (s.ring n (s.tdh n)).getLsbD 27 then upd s.reported n ((s.tdh n + 1) % ringSize)
          else s.reported }
  /-- The card of output `n` writes the reported head to memory. -/
  | writeBack (s : St σ D) (n : Nat) : n < outs →
      Step outs h s { s with heads := upd s.heads n (s.reported n) }

/-- Zero or more steps. -/
inductive Steps {σ D : Type} (outs : Nat) (h : Handler σ D) (s : St σ D) : St σ D → Prop
  | refl : Steps outs h s s
  | step {t u : St σ D} : Steps outs h s t → Step outs h t u → Steps outs h s u

end Verif.Ixgbe
