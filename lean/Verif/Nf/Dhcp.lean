/-
Model of /repo/nf/dhcp_ipv4/dhcp.c and dhcp.h.

Simplifications (whole file):
* The client table is a `Table` (see Verif.Nf.Table) with the six bytes of an Ethernet
  address as the key; its memory is apart from that of packets.
* `os_memory_alloc` succeeds; the address array it returns holds zeros.
* The functions that answer messages take the address of the DHCP header in a total,
  byte-addressed memory: an access to an unmapped address is not told apart. Loads and
  stores are little endian (x86-64).
* A write outside the address array, or a call against the contract of the map or the
  pool, is the result `none`.
-/
import Verif.Nf.Table
import Verif.Nf.Packet

set_option autoImplicit false

namespace Verif.Nf.Dhcp
open Verif.Config Verif.Memory

/-- The bytes of a string literal. -/
def name (s : String) : List UInt8 := s.toList.map fun c => UInt8.ofNat c.toNat

/-- dhcp.c:10-21, the static variables after a successful nf_init. -/
structure Server where
  ips : List Nat
  table : Table (List UInt8)
  mac : List UInt8
  serverIp : Nat
  mask : Nat
  gateway : Nat
  dns : Nat
  exp : Nat

/-- dhcp.c:158-166, the loop that fills the address array; `limit` is the 64-bit sum
`ip_subnet + num_ipv4_addr_avail`, the array's length is `capacity`, and `next_avail_ip++` is
modulo 2^32. The first argument bounds the iterations; running out is `none`. -/
def fill (server gateway dns limit : Nat) : Nat → Nat → Nat → List Nat → Option (List Nat)
  | 0, _, _, _ => none
  | fuel + 1, next, index, arr =>
    if next < limit then
      if next ≠ server ∧ next ≠ gateway ∧ next ≠ dns then
        if index < arr.length then
          if index + 1 = arr.length then some (arr.set index next)
          else fill server gateway dns limit fuel ((next + 1) % 2 ^ 32) (index + 1) (arr.set index next)
        else none
      else if index = arr.length then some arr
      else fill server gateway dns limit fuel ((next + 1) % 2 ^ 32) index arr
    else some arr

/-- dhcp.c:140-167, nf_init once the configuration has been read; `tmp` is the server's
Ethernet address. `some none` stands for `return false`. `MAX_MASK - subnet_mask` is a 32-bit
difference, the `- 4` is modulo 2^64. -/
def setup (capacity server mask gateway dns exp tmp : Nat) : Option (Option Server) :=
  let mac := (List.range 6).map fun i => UInt8.ofNat (tmp / 256 ^ i)
  let num := (2 ^ 32 - 1) - mask
  let less := (num + 2 ^ 64 - 4) % 2 ^ 64
  let capacity := if less < capacity then less else capacity
  if capacity = 0 then some none
  else do
    let subnet := server &&& mask
    let table ← Table.alloc (List.replicate 6 0) capacity exp
    let first := (subnet + 1) % 2 ^ 32
    let limit := subnet + num
    let ips ← fill server gateway dns limit (limit + 1) first 0 (List.replicate capacity 0)
    some (some ⟨ips, table, mac, server, mask, gateway, dns, exp⟩)

/-- dhcp.c:112-168 `nf_init`, over the configuration table. The device count is ignored
(dhcp.c:115). `some none` stands for `return false`. -/
def init (items : List (List UInt8 × Nat)) : Option (Option Server) := do
  match ← getSize items (name "max number dhcp connections") with
  | none => some none
  | some capacity =>
    match ← getU32 items (name "DHCP ipv4 address") with
    | none => some none
    | some server =>
      match ← getU32 items (name "DHCP ipv4 mask") with
      | none => some none
      | some mask =>
        match ← getU32 items (name "gateway ipv4 address") with
        | none => some none
        | some gateway =>
          match ← getU32 items (name "domain name server ip") with
          | none => some none
          | some dns =>
            match ← getU32 items (name "expiration time") with
            | none => some none
            | some exp =>
              match ← getSize items (name "server ether address") with
              | none => some none
              | some tmp => setup capacity server mask gateway dns exp tmp

/-- The whole of /repo/nf/dhcp_ipv4/config. -/
def shipped : List (List UInt8 × Nat) :=
  [(name "max number dhcp connections", 10),
   (name "server ether address", 2486397660560),
   (name "DCHP ipv4 address", 3221357310),
   (name "DHCP ipv4 mask", 4294967040),
   (name "gateway ipv4 address", 3221357057),
   (name "domain name server ip", 3221357058),
   (name "exipration time", 86400)]

/-- A byte of the packet; `none` past its end. -/
def byte? (p : Packet) (a : Nat) : Option Nat :=
  if a < p.length then some (p.data a).toNat else none

/-- Little-endian 16-bit load inside the packet. -/
def word? (p : Packet) (a : Nat) : Option Nat := do
  let lo ← byte? p a
  let hi ← byte? p (a + 1)
  some (lo + 256 * hi)

/-- Little-endian 32-bit load inside the packet. -/
def dword? (p : Packet) (a : Nat) : Option Nat := do
  let lo ← word? p a
  let hi ← word? p (a + 2)
  some (lo + 65536 * hi)

/-- dhcp.h:193-205 `net_get_dhcp_header`, given the offset of the IPv4 header. The protocol is at
offset 9, the ports follow the 20-byte header (packet.h:54-57), the DHCP header starts 8 bytes
later and its magic cookie is at offset 236 (dhcp.h:43-60). `tmp->…` are read in the order of
the `&&` chain. A load past the end of the packet is `none`. -/
def getDhcpHeader (p : Packet) (ipv4 : Nat) : Option (Option Nat) := do
  let proto ← byte? p (ipv4 + 9)
  if proto ≠ 17 then some none
  else
    let udp := ipv4 + ipv4Size
    let dst ← word? p (udp + 2)
    if dst ≠ 67 then some none
    else
      let src ← word? p udp
      if src ≠ 68 then some none
      else
        let cookie ← dword? p (udp + 8 + 236)
        if cookie ≠ 0x63825363 then some none else some (some (udp + 8))

/-- dhcp.c:170-208 `nf_handle`: its body is commented out after the headers have been found, so
there is no output and the state stays. `none` stands for a load past the end of the packet. -/
def handle (s : Server) (p : Packet) : Option (Server × List Out) := do
  let type ← word? p 12
  if type ≠ 0x0008 then some (s, [])
  else
    match ← getDhcpHeader p etherSize with
    | none => some (s, [])
    | some _ =>
      let proto ← byte? p (etherSize + 9)
      if proto ≠ 6 ∧ proto ≠ 17 then some (s, []) else some (s, [])

/-- Little-endian 64-bit load. -/
def ld64 (m : Mem) (a : Nat) : Nat := ld32 m a + 2 ^ 32 * ld32 m (a + 4)

/-- dhcp.h:59: the member `options` is a pointer, at offset 240 of the header. -/
def options (m : Mem) (h : Nat) : Nat := ld64 m (h + 240)

/-- dhcp.h:107-119 and 128-140: `client_identifier_value`, at offset 6 of both option structures. -/
def client (m : Mem) (o : Nat) : List UInt8 := bytesAt m (o + 6) 6

/-- dhcp.h:214-218 `is_dhcp_discover_message`. -/
def isDiscover (m : Mem) (h : Nat) : Bool := decide (m (options m h + 2) = 1 ∧ m h = 1)

/-- dhcp.h:227-231 `is_dhcp_request_message`. -/
def isRequest (m : Mem) (h : Nat) : Bool := decide (m (options m h + 2) = 3 ∧ m h = 1)

/-- dhcp.h:237-251 `set_dhcp_offer_option` and dhcp.h:258-272 `set_dhcp_ack_option`, which only
differ in the message type; offsets as in dhcp.h:69-89. -/
def setOptions (m : Mem) (o : Nat) (type : UInt8) : Mem :=
  let m := store m (o + 2) type
  let m := store (store m (o + 3) 54) (o + 4) 4
  let m := store (store m (o + 27) 6) (o + 28) 4
  let m := store (store m (o + 21) 3) (o + 22) 4
  let m := store (store m (o + 15) 51) (o + 16) 4
  let m := store (store m (o + 9) 1) (o + 10) 4
  store m (o + 33) 255

/-- dhcp.h:274-278 `set_dhcp_nack_option`. -/
def setNack (m : Mem) (o : Nat) : Mem := store (store m (o + 2) 6) (o + 3) 255

/-- dhcp.c:37-41 and 104-108: the values of a reply's options. -/
def setValues (s : Server) (m : Mem) (o : Nat) : Mem :=
  let m := st32 m (o + 5) s.serverIp
  let m := st32 m (o + 29) s.dns
  let m := st32 m (o + 23) s.gateway
  let m := st32 m (o + 11) s.mask
  st32 m (o + 17) s.exp

/-- dhcp.c:31-42 `create_dhcp_ack_message`; `op` is at offset 0 and `yaddr` at offset 16. -/
def createAck (s : Server) (m : Mem) (h ip : Nat) : Mem :=
  let m := st32 (store m h 2) (h + 16) ip
  let o := options m h
  setValues s (setOptions m o 5) o

/-- dhcp.c:53-69 `is_dhcp_request_message_accepted`; `requested_ip_address_value` is at offset 14
of the options. -/
def request (s : Server) (m : Mem) (h time : Nat) : Option (Server × Mem × Bool) :=
  let o := options m h
  match s.table.map.get (client m o) with
  | some index => do
    let ip ← s.ips[index]?
    if ip = ld32 m (o + 14) then
      let table ← s.table.refresh time index
      some ({ s with table := table }, createAck s m h ip, true)
    else some (s, setNack m o, true)
  | none => some (s, m, false)

/-- dhcp.c:100-109, the end of `try_create_dhcp_discover_message`. -/
def offer (s : Server) (m : Mem) (h : Nat) : Mem :=
  let o := options m h
  setValues s (setOptions (store m h 2) o 2) o

/-- dhcp.c:79-110 `try_create_dhcp_discover_message`. -/
def discover (s : Server) (m : Mem) (h time : Nat) : Option (Server × Mem × Bool) :=
  let o := options m h
  match s.table.map.get (client m o) with
  | some index => do
    let table ← s.table.refresh time index
    let ip ← s.ips[index]?
    some ({ s with table := table }, offer s (st32 m (h + 16) ip) h, true)
  | none => do
    match ← s.table.insert time (client m o) with
    | (table, none) => some ({ s with table := table }, m, false)
    | (table, some index) =>
      let ip ← s.ips[index]?
      some ({ s with table := table }, offer s (st32 m (h + 16) ip) h, true)

/-- dhcp.c:188-196, the part of nf_handle that is commented out: which function answers a
message. -/
def serve (s : Server) (m : Mem) (h time : Nat) : Option (Server × Mem × Bool) :=
  if isDiscover m h then discover s m h time
  else if isRequest m h then request s m h time
  else some (s, m, false)

/-- A sequence of messages: for each, the memory with the message, the address of its DHCP header
and the time. -/
def run : Server → List (Mem × Nat × Nat) → Option (Server × List (Mem × Bool))
  | s, [] => some (s, [])
  | s, (m, h, time) :: rest => do
    let (s, r) ← serve s m h time
    let (s, rs) ← run s rest
    some (s, r :: rs)

end Verif.Nf.Dhcp
