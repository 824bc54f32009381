/-
Model of /repo/nf/maglev/balancer.h and /repo/nf/maglev/maglev.c.

The state is the flow table with the array of the flows' backends, the backend pool
and the consistent hash table. See Verif.Nf.Table for how the map and pool are
represented. `hash` is os_memory_hash of a flow. An out-of-bounds access is the
result `none`.
-/
import Verif.Nf.Table
import Verif.Nf.Packet
import Verif.Env.Cht

set_option autoImplicit false

namespace Verif.Nf.Maglev

/-- balancer.h:23-30 `struct balancer`. -/
structure Balancer where
  flows : Table Flow
  flowBackends : List Nat
  backendPool : IndexPool.Pool
  cht : Cht.Cht

/-- balancer.h:32-42 `balancer_alloc`. -/
def alloc (flowCap flowExp backendCap backendExp chtHeight : Nat) : Option Balancer := do
  let flows ← Table.alloc Flow.zero flowCap flowExp
  let pool ← IndexPool.alloc backendCap backendExp
  let cht ← Cht.alloc chtHeight backendCap
  some { flows := flows, flowBackends := List.replicate flowCap 0, backendPool := pool, cht := cht }

/-- balancer.h:62-79: choose a backend and record the flow if possible. -/
def pick (hash : Flow → Nat) (s : Balancer) (flow : Flow) (time : Nat) : Option (Balancer × Option Nat) := do
  match ← Cht.find s.cht (hash flow) s.backendPool time with
  | none => some (s, none)
  | some backend =>
    let (flows, _) ← s.flows.insert time flow
    some ({ s with flows := flows }, some backend)

/-- balancer.h:49-60: a known flow; `alive` is the answer of index_pool_used. -/
def knownFlow (hash : Flow → Nat) (s : Balancer) (flow : Flow) (time index backend : Nat) :
    Bool → Option (Balancer × Option Nat)
  | true => do
    let flows ← s.flows.refresh time index
    some ({ s with flows := flows }, some backend)
  | false => do
    let flows ← s.flows.drop index
    pick hash { s with flows := flows } flow time

/-- balancer.h:44-80 `balancer_get_backend`; `none` = returns false. -/
def getBackend (hash : Flow → Nat) (s : Balancer) (flow : Flow) (time : Nat) : Option (Balancer × Option Nat) :=
  match s.flows.map.get flow with
  | some index => do
    let backend ← s.flowBackends[index]?
    let alive ← IndexPool.used s.backendPool time backend
    knownFlow hash s flow time index backend alive
  | none => pick hash s flow time

/-- balancer.h:82 `balancer_process_heartbeat`. -/
def heartbeat (s : Balancer) (backend time : Nat) : Option Balancer := do
  let pool ← IndexPool.refresh s.backendPool time backend
  some { s with backendPool := pool }

/-- maglev.c:12-38 `nf_init` after reading the configuration. `MAX_CHT_HEIGHT` is
40000 (structs/cht.h). -/
def init (devicesCount flowCap flowExp backendExp chtHeight : Nat) : Option Balancer :=
  if devicesCount < 2 then none
  else if chtHeight = 0 ∨ chtHeight ≥ 40000 then none
  else if devicesCount - 1 ≥ chtHeight then none
  else alloc flowCap flowExp (devicesCount - 1) backendExp chtHeight

/-- maglev.c:40-61 `nf_handle`. -/
def handle (hash : Flow → Nat) (devicesCount : Nat) (s : Balancer) (p : Packet) : Option (Balancer × List Out) :=
  let m := p.data
  match getIpv4Header m (getEtherHeader p) with
  | none => some (s, [])
  | some ip =>
    match getTcpudpHeader m ip with
    | none => some (s, [])
    | some l4 =>
      if p.device < devicesCount - 1 then do
        let s ← heartbeat s p.device p.time
        some (s, [])
      else do
        let flow : Flow := { srcIp := ld32 m (ip + 12), dstIp := ld32 m (ip + 16),
                             srcPort := ld16 m l4, dstPort := ld16 m (l4 + 2), protocol := (m (ip + 9)).toNat }
        match ← getBackend hash s flow p.time with
        | (s, none) => some (s, [])
        | (s, some backend) => some (s, [.transmit p backend false])

/-- A packet sequence. -/
def run (hash : Flow → Nat) (devicesCount : Nat) : Balancer → List Packet → Option (Balancer × List (List Out))
  | s, [] => some (s, [])
  | s, p :: ps => do
    let (s, o) ← handle hash devicesCount s p
    let (s, os) ← run hash devicesCount s ps
    some (s, o :: os)

end Verif.Nf.Maglev
