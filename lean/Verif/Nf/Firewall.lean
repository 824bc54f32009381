/-
Model of /repo/nf/firewall/firewall.c and /repo/nf/firewall/flow_table.h.

The NF state is the flow table; the external device is fixed by nf_init. See
Verif.Nf.Table for how the map and pool are represented.
-/
import Verif.Nf.Table
import Verif.Nf.Packet

set_option autoImplicit false

namespace Verif.Nf.Firewall

/-- flow_table.h:36-50 `flow_table_learn_internal`. -/
def learnInternal (tb : Table Flow) (time : Nat) (flow : Flow) : Option (Table Flow) :=
  match tb.map.get flow with
  | some index => tb.refresh time index
  | none => do
    let (tb, _) ← tb.insert time flow
    some tb

/-- flow_table.h:52-61 `flow_table_has_external`. -/
def hasExternal (tb : Table Flow) (time : Nat) (flow : Flow) : Option (Table Flow × Bool) :=
  match tb.map.get flow with
  | some index => do
    if ← IndexPool.used tb.pool time index then do
      let tb ← tb.refresh time index
      some (tb, true)
    else some (tb, false)
  | none => some (tb, false)

/-- firewall.c:10-24 `nf_init` after reading the configuration. -/
def init (expiration maxFlows : Nat) : Option (Table Flow) := Table.alloc Flow.zero maxFlows expiration

/-- firewall.c:26-60 `nf_handle`. Field offsets: packet.h:39-57. -/
def handle (externalDevice : Nat) (tb : Table Flow) (p : Packet) : Option (Table Flow × List Out) :=
  let m := p.data
  match getIpv4Header m (getEtherHeader p) with
  | none => some (tb, [])
  | some ip =>
    match getTcpudpHeader m ip with
    | none => some (tb, [])
    | some l4 =>
      if p.device = externalDevice then do
        let flow : Flow := { srcIp := ld32 m (ip + 16), dstIp := ld32 m (ip + 12),
                             srcPort := ld16 m (l4 + 2), dstPort := ld16 m l4, protocol := (m (ip + 9)).toNat }
        let (tb, ok) ← hasExternal tb p.time flow
        if !ok then some (tb, [])
        else some (tb, [.transmit p (otherDevice p) false])
      else do
        let flow : Flow := { srcIp := ld32 m (ip + 12), dstIp := ld32 m (ip + 16),
                             srcPort := ld16 m l4, dstPort := ld16 m (l4 + 2), protocol := (m (ip + 9)).toNat }
        let tb ← learnInternal tb p.time flow
        some (tb, [.transmit p (otherDevice p) false])

/-- A packet sequence. -/
def run (externalDevice : Nat) : Table Flow → List Packet → Option (Table Flow × List (List Out))
  | tb, [] => some (tb, [])
  | tb, p :: ps => do
    let (tb, o) ← handle externalDevice tb p
    let (tb, os) ← run externalDevice tb ps
    some (tb, o :: os)

end Verif.Nf.Firewall
