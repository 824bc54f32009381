/-
Model of /repo/nf/nat/nat.c and /repo/nf/nat/flow_table.h.

The NF state is the flow table; the external address, WAN device and start port
are fixed by nf_init. See Verif.Nf.Table for how the map and pool are represented.
-/
import Verif.Nf.Table
import Verif.Nf.Checksum

set_option autoImplicit false

namespace Verif.Nf.NatNf

/-- nat.c:7-9 and flow_table.h:26. -/
structure Config where
  externalAddr : Nat
  wanDevice : Nat
  startPort : Nat

/-- flow_table.h:41-62 `flow_table_get_internal`; `none` = returns false. -/
def getInternal (startPort : Nat) (tb : Table Flow) (time : Nat) (flow : Flow) : Option (Table Flow × Option Nat) :=
  match tb.map.get flow with
  | some index => do
    let tb ← tb.refresh time index
    some (tb, some ((startPort + index % 65536) % 65536))
  | none => do
    match ← tb.insert time flow with
    | (tb, none) => some (tb, none)
    | (tb, some index) => some (tb, some ((startPort + index % 65536) % 65536))

/-- flow_table.h:64-74 `flow_table_get_external`; `none` = returns false. -/
def getExternal (startPort : Nat) (tb : Table Flow) (time port : Nat) : Option (Table Flow × Option Flow) := do
  let index := (65536 + port - startPort) % 65536
  if ← IndexPool.used tb.pool time index then do
    let tb ← tb.refresh time index
    let flow ← tb.keys[index]?
    some (tb, some flow)
  else some (tb, none)

/-- nat.c:11-27 `nf_init` after reading the configuration. -/
def init (expiration maxFlows : Nat) : Option (Table Flow) := Table.alloc Flow.zero maxFlows expiration

/-- nat.c:47-50: rewriting of a packet from the WAN. -/
def rewriteInbound (m : Mem) (ip l4 : Nat) (fl : Flow) : Mem :=
  let m := packetChecksumUpdate32 m ip (ld32 m (ip + 16)) fl.srcIp true
  let m := packetChecksumUpdate m ip (ld16 m (l4 + 2)) fl.srcPort false
  let m := st32 m (ip + 16) fl.srcIp
  st16 m (l4 + 2) fl.srcPort

/-- nat.c:70-73: rewriting of a packet to the WAN. -/
def rewriteOutbound (m : Mem) (ip l4 externalAddr port : Nat) : Mem :=
  let m := packetChecksumUpdate32 m ip (ld32 m (ip + 12)) externalAddr true
  let m := packetChecksumUpdate m ip (ld16 m l4) port false
  let m := st32 m (ip + 12) externalAddr
  st16 m l4 port

/-- nat.c:29-77 `nf_handle`. -/
def handle (c : Config) (tb : Table Flow) (p : Packet) : Option (Table Flow × List Out) :=
  let m := p.data
  match getIpv4Header m (getEtherHeader p) with
  | none => some (tb, [])
  | some ip =>
    match getTcpudpHeader m ip with
    | none => some (tb, [])
    | some l4 =>
      if p.device = c.wanDevice then do
        match ← getExternal c.startPort tb p.time (ld16 m (l4 + 2)) with
        | (tb, none) => some (tb, [])
        | (tb, some fl) =>
          if fl.dstIp ≠ ld32 m (ip + 12) ∨ fl.dstPort ≠ ld16 m l4 ∨ fl.protocol ≠ (m (ip + 9)).toNat then
            some (tb, [])
          else
            some (tb, [.transmit { p with data := rewriteInbound m ip l4 fl } (otherDevice p) true])
      else do
        let flow : Flow := { srcIp := ld32 m (ip + 12), dstIp := ld32 m (ip + 16),
                             srcPort := ld16 m l4, dstPort := ld16 m (l4 + 2), protocol := (m (ip + 9)).toNat }
        match ← getInternal c.startPort tb p.time flow with
        | (tb, none) => some (tb, [])
        | (tb, some port) =>
          some (tb, [.transmit { p with data := rewriteOutbound m ip l4 c.externalAddr port } (otherDevice p) true])

/-- A packet sequence. -/
def run (c : Config) : Table Flow → List Packet → Option (Table Flow × List (List Out))
  | tb, [] => some (tb, [])
  | tb, p :: ps => do
    let (tb, o) ← handle c tb p
    let (tb, os) ← run c tb ps
    some (tb, o :: os)

end Verif.Nf.NatNf
