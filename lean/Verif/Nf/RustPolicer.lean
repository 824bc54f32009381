/-
Model of /repo/nf/rust-policer/src/lib.rs and defs.rs, and of the start of policer.c:nf_init,
which reads the configuration (the rest of policer.c is in Verif.Nf.Policer).

Simplifications (whole file):
* The map, the pool and the configuration are the C code that the Rust code calls: see
  Verif.Nf.Table and Verif.Env.Memory. The array ADDRESSES, MAP and POOL are a `Table`.
* `none` is a panic, an access out of bounds, or a call that violates a precondition.
* The statics are a value that nf_init returns; what they hold after a failed nf_init is not kept.
* Reading or referring to a field through a pointer that is not aligned for it is undefined in
  Rust; `handle` ignores that (it reads the bytes), and C64_misaligned_wrong is about it.
-/
import Verif.Nf.Policer

set_option autoImplicit false

namespace Verif.Nf.RustPolicer
open Verif.Nf.Policer (Bucket State)

/-- The two ways in which cargo compiles arithmetic: with the release profile (Makefile:12, and
Cargo.toml:8-13 does not set overflow-checks) it wraps; with the debug profile an overflow panics. -/
inductive Build where
  | release
  | debug
deriving DecidableEq, Repr

/-- `a + b` for u64. -/
def add (m : Build) (a b : Nat) : Option Nat :=
  match m with
  | .release => some ((a + b) % 2 ^ 64)
  | .debug => if a + b < 2 ^ 64 then some (a + b) else none

/-- `a * b` for u64. -/
def mul (m : Build) (a b : Nat) : Option Nat :=
  match m with
  | .release => some (a * b % 2 ^ 64)
  | .debug => if a * b < 2 ^ 64 then some (a * b) else none

/-- `a - b` for an unsigned type of `w` bits. -/
def sub (m : Build) (w a b : Nat) : Option Nat :=
  match m with
  | .release => some ((2 ^ w + a - b) % 2 ^ w)
  | .debug => if b ≤ a then some (a - b) else none

/-- `a / b` for u64; division by zero panics in both profiles. -/
def div (a b : Nat) : Option Nat := if b = 0 then none else some (a / b)

/-- The smallest multiple of `a` from `n` on. -/
def alignUp (n a : Nat) : Nat := (n + a - 1) / a * a

/-- The offsets that `#[repr(C)]` gives to fields of these sizes and alignments from `o` on, and
where the last one ends. -/
def offsets : Nat → List (Nat × Nat) → List Nat × Nat
  | o, [] => ([], o)
  | o, (size, align) :: fs =>
    let o := alignUp o align
    let (r, e) := offsets (o + size) fs
    (o :: r, e)

/-- The offsets of a `#[repr(C)]` structure and its size, the end rounded up to the largest
alignment. -/
def reprC (fs : List (Nat × Nat)) : List Nat × Nat :=
  let (r, e) := offsets 0 fs
  (r, alignUp e ((fs.map (·.2)).foldl max 1))

/-- defs.rs:7-14 `NetPacket`: data, length, time, device, _padding, os_tag. -/
def netPacket : List (Nat × Nat) := [(8, 8), (8, 8), (8, 8), (2, 2), (6, 1), (8, 8)]

/-- defs.rs:17-21 `NetEtherHeader`: src_addr, dst_addr, ether_type. -/
def netEtherHeader : List (Nat × Nat) := [(6, 1), (6, 1), (2, 2)]

/-- defs.rs:24-35 `NetIPv4Header`: version_ihl, type_of_service, total_length, packet_id,
fragment_offset, time_to_live, next_proto_id, hdr_checksum, src_addr, dst_addr. -/
def netIPv4Header : List (Nat × Nat) :=
  [(1, 1), (1, 1), (2, 2), (2, 2), (2, 2), (1, 1), (1, 1), (2, 2), (4, 4), (4, 4)]

/-- `(*ether_header).ether_type`, defs.rs:20: the third field. -/
def etherTypeOffset : Nat := ((reprC netEtherHeader).1)[2]?.getD 0

/-- `(*ipv4_header).dst_addr`, defs.rs:34: the tenth field. -/
def dstAddrOffset : Nat := ((reprC netIPv4Header).1)[9]?.getD 0

/-- `u16::from_be` on a little-endian machine. -/
def fromBe16 (v : Nat) : Nat := v % 256 * 256 + v / 256

/-- defs.rs:38-41 `net_get_ether_header`: the header's offset from `(*packet).data`, and `true`. -/
def getEtherHeader (_ : Packet) : Nat × Bool := (0, true)

/-- defs.rs:44-47 `net_get_ipv4_header`; `offset(1)` adds the size of `NetEtherHeader`. -/
def getIpv4Header (m : Mem) (ether : Nat) : Nat × Bool :=
  (ether + (reprC netEtherHeader).2, fromBe16 (ld16 m (ether + etherTypeOffset)) == 0x0800)

/-- A configuration name as a C string without its terminator: `cstr!`, lib.rs:7-11, and C literals. -/
def name (s : String) : List UInt8 := s.toList.map fun c => UInt8.ofNat c.toNat

/-- lib.rs:19-26: the statics after nf_init. -/
structure Statics where
  wanDevice : Nat
  rate : Nat
  burst : Nat
  maxFlows : Nat
  state : State

/-- lib.rs:29-82 `nf_init`; `some none` is `return false`. -/
def init (m : Build) (items : List (List UInt8 × Nat)) (devicesCount : Nat) : Option (Option Statics) :=
  if devicesCount ≠ 2 then some none
  else do
    match ← Config.tryGet items (name "wan device") with
    | none => some none
    | some device =>
      if device ≥ devicesCount then some none
      else
        let wanDevice := device % 2 ^ 16
        match ← Config.tryGet items (name "rate") with
        | none => some none
        | some rate =>
          if rate = 0 then some none
          else
            match ← Config.tryGet items (name "burst") with
            | none => some none
            | some burst =>
              if burst = 0 then some none
              else
                match ← Config.tryGet items (name "max flows") with
                | none => some none
                | some maxFlows =>
                  if maxFlows = 0 ∨ maxFlows > (2 ^ 64 - 1) / 64 then some none
                  else
                    let buckets := List.replicate maxFlows ⟨0, 0⟩
                    let addresses := List.replicate maxFlows 0
                    let map := CMap.alloc maxFlows
                    let tokens ← mul m 1000000000 burst
                    let exp ← div tokens rate
                    let pool ← IndexPool.alloc maxFlows exp
                    some (some ⟨wanDevice, rate, burst, maxFlows, ⟨⟨addresses, map, pool⟩, buckets⟩⟩)

/-- lib.rs:103-111: the bucket's size after adding what accrued since it was last changed. -/
def refill (m : Build) (c : Statics) (b : Bucket) (time : Nat) : Option Nat := do
  let timeDiff ← sub m 64 time b.time
  let full ← div c.burst c.rate
  if timeDiff < full then
    let more ← mul m timeDiff c.rate
    let size ← add m b.size more
    if size > c.burst then some c.burst else some size
  else some c.burst

/-- lib.rs:102-119: a packet to a known address, from `index_pool_refresh` on. The flag says whether
nf_handle goes on to net_transmit. -/
def known (m : Build) (c : Statics) (p : Packet) (index : Nat) : Option (Statics × Bool) := do
  let s := c.state
  let pool ← IndexPool.refresh s.table.pool p.time index
  let b ← s.buckets[index]?
  let size ← refill m c b p.time
  if size > p.length then
    let left ← sub m 64 size p.length
    some ({ c with state := ⟨{ s.table with pool := pool }, s.buckets.set index ⟨left, p.time⟩⟩ }, true)
  else
    some ({ c with state := ⟨{ s.table with pool := pool }, s.buckets.set index ⟨size, p.time⟩⟩ }, false)

/-- lib.rs:128-130: `if was_used { map_remove(MAP, ADDRESSES.offset(index)) }`. -/
def forget (tb : Table Nat) (index : Nat) (wasUsed : Bool) : Option (CMap Nat) :=
  if wasUsed then
    match tb.keys[index]? with
    | none => none
    | some old => tb.map.remove old index
  else some tb.map

/-- lib.rs:121-143: a packet to an unknown address. -/
def unknown (m : Build) (c : Statics) (p : Packet) (addr : Nat) : Option (Statics × Bool) :=
  if p.length > c.burst then some (c, false)
  else do
    let s := c.state
    let (pool, r) ← IndexPool.borrow s.table.pool p.time
    match r with
    | none => some ({ c with state := ⟨{ s.table with pool := pool }, s.buckets⟩ }, false)
    | some (index, wasUsed) =>
      let map ← forget s.table index wasUsed
      let tb ← Table.writeKey ⟨s.table.keys, map, pool⟩ index addr
      let map ← tb.map.set addr index index
      let size ← sub m 64 c.burst p.length
      if index < s.buckets.length then
        some ({ c with state := ⟨⟨tb.keys, map, tb.pool⟩, s.buckets.set index ⟨size, p.time⟩⟩ }, true)
      else none

/-- lib.rs:95-144: what happens before `net_transmit`; nothing to a packet that is not from the WAN. -/
def police (m : Build) (c : Statics) (p : Packet) (ip : Nat) : Option (Statics × Bool) :=
  if p.device = c.wanDevice then
    match c.state.table.map.get (ld32 p.data (ip + dstAddrOffset)) with
    | some index => known m c p index
    | none => unknown m c p (ld32 p.data (ip + dstAddrOffset))
  else some (c, true)

/-- lib.rs:85-148 `nf_handle`. -/
def handle (m : Build) (c : Statics) (p : Packet) : Option (Statics × List Out) := do
  let (ether, ok) := getEtherHeader p
  if !ok then some (c, [])
  else
    let (ip, ok) := getIpv4Header p.data ether
    if !ok then some (c, [])
    else
      let (c, pass) ← police m c p ip
      if pass then do
        let other ← sub m 16 1 p.device
        some (c, [.transmit p other false])
      else some (c, [])

/-- A packet sequence. -/
def run (m : Build) : Statics → List Packet → Option (List (List Out))
  | _, [] => some []
  | c, p :: ps => do
    let (c, o) ← handle m c p
    let os ← run m c ps
    some (o :: os)

/-- The Rust policer as its runtime uses it: nf_init and then nf_handle for every packet.
`some none` if nf_init returns false. -/
def program (m : Build) (items : List (List UInt8 × Nat)) (devicesCount : Nat) (ps : List Packet) :
    Option (Option (List (List Out))) := do
  match ← init m items devicesCount with
  | none => some none
  | some c => do
    let os ← run m c ps
    some (some os)

end Verif.Nf.RustPolicer

namespace Verif.Nf.Policer
open Verif.Nf.RustPolicer (name)

/-- skeleton.h:30-38 `os_config_get_device`, with the cast to 16 bits. -/
def getDevice (items : List (List UInt8 × Nat)) (n : List UInt8) (devicesCount : Nat) : Option (Option Nat) := do
  match ← Config.get items n 0 (devicesCount - 1) with
  | none => some none
  | some v => some (some (v % 2 ^ 16))

/-- policer.c:21-42 `nf_init`; `some none` is `return false`. Once all values are read, what is left
is `init`. -/
def nfInit (items : List (List UInt8 × Nat)) (devicesCount : Nat) : Option (Option (Config × State)) :=
  if devicesCount ≠ 2 then some none
  else do
    match ← getDevice items (name "wan device") devicesCount with
    | none => some none
    | some wanDevice =>
      match ← Config.getU64 items (name "rate") with
      | none => some none
      | some rate =>
        match ← Config.getU64 items (name "burst") with
        | none => some none
        | some burst =>
          match ← Config.getSize items (name "max flows") with
          | none => some none
          | some maxFlows =>
            if rate = 0 ∨ burst = 0 then some none
            else do
              let s ← init ⟨wanDevice, rate, burst⟩ maxFlows
              some (some (⟨wanDevice, rate, burst⟩, s))

/-- The C policer as its runtime uses it: nf_init and then nf_handle for every packet. -/
def program (items : List (List UInt8 × Nat)) (devicesCount : Nat) (ps : List Packet) :
    Option (Option (List (List Out))) := do
  match ← nfInit items devicesCount with
  | none => some none
  | some (c, s) => do
    let (_, os) ← run c s ps
    some (some os)

end Verif.Nf.Policer
