/- Property C63: the DHCP server (/repo/nf/dhcp_ipv4). -/
import Verif.Props.DhcpProofs
import Verif.Props.Memory

set_option autoImplicit false

namespace Verif.Props
open Verif.Nf Verif.Nf.Dhcp

/-- What C63 calls the configuration: the value of a name, if it fits `bits` bits. -/
def dhcpU32 (items : List (List UInt8 × Nat)) (n : String) : Option Nat :=
  (lookup items (name n)).filter (· ≤ 0xFFFFFFFF)

/-- The same for a size: times 64 it fits 64 bits. -/
def dhcpSize (items : List (List UInt8 × Nat)) (n : String) : Option Nat :=
  (lookup items (name n)).filter fun v => v * 64 ≤ 0xFFFFFFFFFFFFFFFF

/-- A well-formed configuration table: C strings and 64-bit values. -/
def dhcpItems (items : List (List UInt8 × Nat)) : Prop :=
  (∀ e ∈ items, 0 ∉ e.1) ∧ ∀ e ∈ items, e.2 < 2 ^ 64

theorem dhcp_init_eq {items : List (List UInt8 × Nat)} (h : dhcpItems items) :
    init items = match dhcpSize items "max number dhcp connections", dhcpU32 items "DHCP ipv4 address",
        dhcpU32 items "DHCP ipv4 mask", dhcpU32 items "gateway ipv4 address", dhcpU32 items "domain name server ip",
        dhcpU32 items "expiration time", dhcpSize items "server ether address" with
      | some cap, some server, some mask, some gateway, some dns, some exp, some mac =>
        setup cap server mask gateway dns exp mac
      | _, _, _, _, _, _, _ => some none := by
  have c := fun n hn => C06_config_helpers items n h.1 hn h.2
  have u : ∀ n : String, 0 ∉ name n → Config.getU32 items (name n) = some (dhcpU32 items n) :=
    fun n hn => (c (name n) hn).2.2.2.1
  have z : ∀ n : String, 0 ∉ name n → Config.getSize items (name n) = some (dhcpSize items n) :=
    fun n hn => (c (name n) hn).2.2.2.2.2
  simp only [init, z _ (show 0 ∉ name "max number dhcp connections" by decide),
    u _ (show 0 ∉ name "DHCP ipv4 address" by decide), u _ (show 0 ∉ name "DHCP ipv4 mask" by decide),
    u _ (show 0 ∉ name "gateway ipv4 address" by decide), u _ (show 0 ∉ name "domain name server ip" by decide),
    u _ (show 0 ∉ name "expiration time" by decide), z _ (show 0 ∉ name "server ether address" by decide),
    Option.bind_eq_bind, Option.bind_some]
  cases dhcpSize items "max number dhcp connections" <;> [rfl; skip]
  cases dhcpU32 items "DHCP ipv4 address" <;> [rfl; skip]
  cases dhcpU32 items "DHCP ipv4 mask" <;> [rfl; skip]
  cases dhcpU32 items "gateway ipv4 address" <;> [rfl; skip]
  cases dhcpU32 items "domain name server ip" <;> [rfl; skip]
  cases dhcpU32 items "expiration time" <;> [rfl; skip]
  cases dhcpSize items "server ether address" <;> rfl

/-- The values that a successful nf_init has read. -/
structure DhcpConfigured (items : List (List UInt8 × Nat)) (s : Server) (cap mac : Nat) : Prop where
  cap : dhcpSize items "max number dhcp connections" = some cap
  server : dhcpU32 items "DHCP ipv4 address" = some s.serverIp
  mask : dhcpU32 items "DHCP ipv4 mask" = some s.mask
  gateway : dhcpU32 items "gateway ipv4 address" = some s.gateway
  dns : dhcpU32 items "domain name server ip" = some s.dns
  exp : dhcpU32 items "expiration time" = some s.exp
  mac : dhcpSize items "server ether address" = some mac

theorem dhcp_u32_lt {items : List (List UInt8 × Nat)} {n : String} {v : Nat} (h : dhcpU32 items n = some v) :
    v < 2 ^ 32 := by
  have := (Option.filter_eq_some_iff.1 h).2
  simp only [decide_eq_true_eq] at this
  omega

/-- C63 (initialization): for every configuration table, nf_init never writes outside its arrays;
it succeeds exactly if all seven names have a value that fits, at least one connection is asked
for, and the mask is not the one that leaves no address; then the statics hold those values, no
client is known, and there is an entry in the address array for each index of the pool. -/
theorem C63_init (items : List (List UInt8 × Nat)) (h : dhcpItems items) :
    ∃ r, init items = some r ∧
      (r.isSome ↔ ∃ cap mask, dhcpSize items "max number dhcp connections" = some cap ∧ cap ≠ 0 ∧
        dhcpU32 items "DHCP ipv4 mask" = some mask ∧ mask ≠ 0xFFFFFFFB ∧
        (dhcpU32 items "DHCP ipv4 address").isSome ∧ (dhcpU32 items "gateway ipv4 address").isSome ∧
        (dhcpU32 items "domain name server ip").isSome ∧ (dhcpU32 items "expiration time").isSome ∧
        (dhcpSize items "server ether address").isSome) ∧
      ∀ s, r = some s → ∃ cap mac, DhcpConfigured items s cap mac ∧
        (∀ i, i < 6 → s.mac[i]? = some (UInt8.ofNat (mac / 256 ^ i))) ∧ s.mac.length = 6 ∧
        1 ≤ s.ips.length ∧ s.ips.length ≤ cap ∧ s.table.pool.size = s.ips.length ∧ s.table.pool.exp = s.exp ∧
        s.table.keys.length = s.ips.length ∧ ∀ c, s.table.map.get c = none := by
  rw [dhcp_init_eq h]
  cases hc : dhcpSize items "max number dhcp connections" with
  | none => exact ⟨none, rfl, by simp, by simp⟩
  | some cap =>
  cases hs : dhcpU32 items "DHCP ipv4 address" with
  | none => exact ⟨none, rfl, by simp, by simp⟩
  | some server =>
  cases hm : dhcpU32 items "DHCP ipv4 mask" with
  | none => exact ⟨none, rfl, by simp, by simp⟩
  | some mask =>
  cases hg : dhcpU32 items "gateway ipv4 address" with
  | none => exact ⟨none, rfl, by simp, by simp⟩
  | some gateway =>
  cases hd : dhcpU32 items "domain name server ip" with
  | none => exact ⟨none, rfl, by simp, by simp⟩
  | some dns =>
  cases he : dhcpU32 items "expiration time" with
  | none => exact ⟨none, rfl, by simp, by simp⟩
  | some exp =>
  cases ha : dhcpSize items "server ether address" with
  | none => exact ⟨none, rfl, by simp, by simp⟩
  | some mac =>
  have hlt := dhcp_u32_lt hm
  obtain ⟨r, h1, h2, h3⟩ := setup_spec cap server mask gateway dns exp mac hlt
  refine ⟨r, h1, ?_, ?_⟩
  · rw [← Option.not_isNone, Bool.not_eq_true', ← Bool.not_eq_true, Option.isNone_iff_eq_none, h2]
    simp only [Option.some.injEq, Option.isSome_some, and_true, exists_and_left]
    constructor
    · intro hno
      exact ⟨cap, rfl, by omega, mask, rfl, by omega⟩
    · rintro ⟨c, rfl, hc0, m, rfl, hm0⟩
      omega
  · intro s hr
    obtain ⟨rfl, rfl, rfl, rfl, rfl, e1, e2, e3, e4, _⟩ := h3 s hr
    have hne : ¬ (cap = 0 ∨ s.mask = 2 ^ 32 - 5) := fun hno => by rw [h2.2 hno] at hr; cases hr
    refine ⟨cap, mac, ⟨hc, hs, hm, hg, hd, he, ha⟩, ?_, by rw [e1]; rfl, ?_, ?_, e3.psize, e3.pexp, e3.klen, ?_⟩
    · intro i hi
      rw [e1, List.getElem?_map, List.getElem?_range hi]; rfl
    · rw [e2]; split <;> omega
    · rw [e2]; split <;> omega
    · intro c; exact get_none_of_look e3 (e4 c)

/-- A corrected configuration, with the names that nf_init looks up. -/
def dhcpSample (mask cap : Nat) : List (List UInt8 × Nat) :=
  [(name "max number dhcp connections", cap),
   (name "server ether address", 2486397660560),
   (name "DHCP ipv4 address", 3221357310),
   (name "DHCP ipv4 mask", mask),
   (name "gateway ipv4 address", 3221357057),
   (name "domain name server ip", 3221357058),
   (name "expiration time", 86400)]

theorem dhcpSample_items {mask cap : Nat} (hm : mask < 2 ^ 64) (hc : cap < 2 ^ 64) : dhcpItems (dhcpSample mask cap) := by
  constructor
  · intro e he
    simp only [dhcpSample, List.mem_cons, List.not_mem_nil, or_false] at he
    rcases he with rfl | rfl | rfl | rfl | rfl | rfl | rfl <;> dsimp only <;> decide
  · intro e he
    simp only [dhcpSample, List.mem_cons, List.not_mem_nil, or_false] at he
    rcases he with rfl | rfl | rfl | rfl | rfl | rfl | rfl <;> dsimp only <;> omega

example : dhcpItems (dhcpSample 4294967040 10) ∧ (init (dhcpSample 4294967040 10)).map Option.isSome = some true := by
  refine ⟨dhcpSample_items (by omega) (by omega), ?_⟩
  obtain ⟨r, h1, h2, _⟩ := C63_init _ (dhcpSample_items (mask := 4294967040) (cap := 10) (by omega) (by omega))
  rw [h1, Option.map_some]
  congr 1
  exact h2.2 ⟨10, 4294967040, rfl, by omega, rfl, by omega, rfl, rfl, rfl, rfl, rfl⟩

/-- Disagreement: the configuration that is shipped with the network function is always rejected,
as it misspells two of the names. -/
theorem C63_shipped_wrong : dhcpItems shipped ∧ init shipped = some none := by
  refine ⟨⟨?_, ?_⟩, ?_⟩
  · intro e he
    simp only [shipped, List.mem_cons, List.not_mem_nil, or_false] at he
    rcases he with rfl | rfl | rfl | rfl | rfl | rfl | rfl <;> dsimp only <;> decide
  · intro e he
    simp only [shipped, List.mem_cons, List.not_mem_nil, or_false] at he
    rcases he with rfl | rfl | rfl | rfl | rfl | rfl | rfl <;> dsimp only <;> omega
  · rfl

theorem dhcp_hosts {p : Nat} (h : 2 ^ 3 ≤ p) (h' : p ≤ 2 ^ 32) : 2 ^ 32 - 1 - (2 ^ 32 - p) = p - 1 ∧ ¬ p - 1 < 4 := by
  omega

/-- C63 (addresses), partial: when the mask has between 3 and 32 host bits, the addresses to give
out are different addresses of hosts in the server's subnet, neither the network's nor the
broadcast address nor that of the server, the gateway or the name server; there are as many as
asked for, but at most the subnet's size less 5. Missing: masks with fewer host bits, or that are
not contiguous; it is false of those, see `C63_addresses_wrong`. -/
theorem C63_addresses_partial (items : List (List UInt8 × Nat)) (hit : dhcpItems items) (s : Server)
    (hs : init items = some (some s)) (k : Nat) (h3 : 3 ≤ k) (hk : k ≤ 32) (hm : s.mask = 2 ^ 32 - 2 ^ k) :
    s.ips.Nodup ∧
    (∀ a ∈ s.ips, a / 2 ^ k = s.serverIp / 2 ^ k ∧ a % 2 ^ k ≠ 0 ∧ a % 2 ^ k ≠ 2 ^ k - 1 ∧ a < 2 ^ 32 ∧
      a ≠ s.serverIp ∧ a ≠ s.gateway ∧ a ≠ s.dns) ∧
    ∃ cap, dhcpSize items "max number dhcp connections" = some cap ∧ s.ips.length = min cap (2 ^ k - 5) := by
  obtain ⟨r, h1, _, hr⟩ := C63_init items hit
  rw [hs] at h1; cases h1
  obtain ⟨cap, mac, hcfg, _⟩ := hr s rfl
  have hq := hs
  rw [dhcp_init_eq hit, hcfg.cap, hcfg.server, hcfg.mask, hcfg.gateway, hcfg.dns, hcfg.exp, hcfg.mac] at hq
  obtain ⟨r', h1', _, h3'⟩ := setup_spec cap s.serverIp s.mask s.gateway s.dns s.exp mac (dhcp_u32_lt hcfg.mask)
  change setup cap s.serverIp s.mask s.gateway s.dns s.exp mac = some (some s) at hq
  rw [h1'] at hq
  cases hq
  obtain ⟨_, _, _, _, _, _, e2, _, _, e5⟩ := h3' s rfl
  have hp : 2 ^ 3 ≤ 2 ^ k := Nat.pow_le_pow_right (by decide) h3
  have hp2 : 2 ^ k ≤ 2 ^ 32 := Nat.pow_le_pow_right (by decide) hk
  have hsv := dhcp_u32_lt hcfg.server
  have hlen : s.ips.length = min cap (2 ^ k - 5) := by
    rw [e2, hm, (dhcp_hosts hp hp2).1, if_neg (dhcp_hosts hp hp2).2]
    congr 1
  rw [hm] at e5
  have ht := ips_take hsv h3 hk (by omega) e5
  refine ⟨?_, ?_, cap, hcfg.cap, hlen⟩
  · rw [ht]; exact (nodup_cands ..).sublist (List.take_sublist _ _)
  · intro a ha
    rw [ht] at ha
    obtain ⟨g1, g2, g3⟩ := mem_cands.1 (List.mem_of_mem_take ha)
    have hle : s.serverIp / 2 ^ k * 2 ^ k ≤ s.serverIp := Nat.div_mul_le_self _ _
    obtain ⟨d, rfl⟩ : ∃ d, a = s.serverIp / 2 ^ k * 2 ^ k + d := ⟨a - s.serverIp / 2 ^ k * 2 ^ k, by omega⟩
    have hd : d < 2 ^ k := by omega
    have hmod : (s.serverIp / 2 ^ k * 2 ^ k + d) % 2 ^ k = d := by
      rw [Nat.mul_comm, Nat.mul_add_mod, Nat.mod_eq_of_lt hd]
    have hdiv : (s.serverIp / 2 ^ k * 2 ^ k + d) / 2 ^ k = s.serverIp / 2 ^ k := by
      rw [Nat.mul_comm, Nat.mul_add_div (by positivity), Nat.div_eq_of_lt hd, Nat.add_zero]
    refine ⟨hdiv, by rw [hmod]; omega, by rw [hmod]; omega, ?_, g3⟩
    have hdv : s.serverIp / 2 ^ k < 2 ^ (32 - k) := by
      rw [Nat.div_lt_iff_lt_mul (by positivity), ← pow_add, show 32 - k + k = 32 by omega]; exact hsv
    calc s.serverIp / 2 ^ k * 2 ^ k + d < s.serverIp / 2 ^ k * 2 ^ k + 2 ^ k := by omega
      _ = (s.serverIp / 2 ^ k + 1) * 2 ^ k := by ring
      _ ≤ 2 ^ (32 - k) * 2 ^ k := Nat.mul_le_mul_right _ hdv
      _ = 2 ^ 32 := by rw [← pow_add, show 32 - k + k = 32 by omega]

example : ∃ s, init (dhcpSample (2 ^ 32 - 2 ^ 8) 10) = some (some s) ∧ s.mask = 2 ^ 32 - 2 ^ 8 ∧
    s.ips = [3221357059, 3221357060, 3221357061, 3221357062, 3221357063, 3221357064, 3221357065, 3221357066,
      3221357067, 3221357068] := ⟨_, rfl, rfl, rfl⟩

/-- The state after initialization agrees with an empty log. -/
theorem dhcp_loginv {items : List (List UInt8 × Nat)} (hit : dhcpItems items) {s : Server}
    (hs : init items = some (some s)) {k : Nat} (h3 : 3 ≤ k) (hk : k ≤ 32) (hm : s.mask = 2 ^ 32 - 2 ^ k) :
    LogInv s.exp s.ips s [] 0 := by
  obtain ⟨r, h1, _, hr⟩ := C63_init items hit
  rw [hs] at h1; cases h1
  obtain ⟨cap, mac, hcfg, _⟩ := hr s rfl
  have hq := hs
  rw [dhcp_init_eq hit, hcfg.cap, hcfg.server, hcfg.mask, hcfg.gateway, hcfg.dns, hcfg.exp, hcfg.mac] at hq
  change setup cap s.serverIp s.mask s.gateway s.dns s.exp mac = some (some s) at hq
  obtain ⟨r', h1', _, h3'⟩ := setup_spec cap s.serverIp s.mask s.gateway s.dns s.exp mac (dhcp_u32_lt hcfg.mask)
  rw [h1'] at hq
  cases hq
  obtain ⟨_, _, _, _, _, _, _, e3, e4, _⟩ := h3' s rfl
  obtain ⟨n1, n2, _⟩ := C63_addresses_partial items hit s hs k h3 hk hm
  refine ⟨e3, rfl, rfl, n1, fun a ha => (n2 a ha).2.2.2.1, by simp, by simp, ?_⟩
  intro c i v hl; rw [e4] at hl; cases hl

/-! What the messages and replies of C63 are, byte by byte. -/

/-- The 32-bit number stored at `a`, least significant byte first. -/
def dhcpLe32 (m : Mem) (a : Nat) : Nat :=
  (m a).toNat + 256 * (m (a + 1)).toNat + 65536 * (m (a + 2)).toNat + 16777216 * (m (a + 3)).toNat

/-- Where the options of the message at `h` are: the pointer stored in its bytes 240 to 247. -/
def dhcpOptions (m : Mem) (h : Nat) : Nat := dhcpLe32 m (h + 240) + 4294967296 * dhcpLe32 m (h + 244)

/-- A message: the memory that holds it, the address of its header, the time. -/
abbrev DhcpMessage := Mem × Nat × Nat

/-- The message's client: bytes 6 to 11 of the options. -/
def dhcpClient (x : DhcpMessage) : List UInt8 :=
  let o := dhcpOptions x.1 x.2.1
  [x.1 (o + 6), x.1 (o + 7), x.1 (o + 8), x.1 (o + 9), x.1 (o + 10), x.1 (o + 11)]

/-- The message is from a client and has the given type. -/
def dhcpIs (x : DhcpMessage) (type : UInt8) : Prop := x.1 x.2.1 = 1 ∧ x.1 (dhcpOptions x.1 x.2.1 + 2) = type

/-- The message is answered with a reply of the given type. -/
def dhcpReplied (x : DhcpMessage) (y : Mem × Bool) (type : UInt8) : Prop :=
  y.2 = true ∧ y.1 (dhcpOptions x.1 x.2.1 + 2) = type

/-- The address in the reply. -/
def dhcpYaddr (x : DhcpMessage) (y : Mem × Bool) : Nat := dhcpLe32 y.1 (x.2.1 + 16)

/-- The reply offers (2) or confirms (5) address `a` to client `c`. -/
def dhcpGrants (x : DhcpMessage) (y : Mem × Bool) (c : List UInt8) (a : Nat) : Prop :=
  (dhcpReplied x y 2 ∨ dhcpReplied x y 5) ∧ dhcpClient x = c ∧ dhcpYaddr x y = a

/-- The options' 34 bytes lie apart from the header's 248. -/
def dhcpApart (x : DhcpMessage) : Prop :=
  dhcpOptions x.1 x.2.1 + 34 ≤ x.2.1 ∨ x.2.1 + 248 ≤ dhcpOptions x.1 x.2.1

theorem dhcpLe32_eq (m : Mem) (a : Nat) : ld32 m a = dhcpLe32 m a := by
  simp only [ld32, ld16, dhcpLe32, Nat.add_assoc, Nat.reduceAdd]; omega

theorem dhcpOptions_eq (m : Mem) (h : Nat) : options m h = dhcpOptions m h := by
  simp only [options, ld64, dhcpLe32_eq, dhcpOptions, Nat.add_assoc, Nat.reduceAdd, Nat.reducePow]

theorem dhcpClient_eq (x : DhcpMessage) : client x.1 (options x.1 x.2.1) = dhcpClient x := by
  simp only [client, bytesAt, dhcpClient, dhcpOptions_eq, List.range, List.range.loop, List.map_cons, List.map_nil,
    Nat.add_assoc, Nat.reduceAdd]

theorem dhcpGrants_iff (x : DhcpMessage) (y : Mem × Bool) (c : List UInt8) (a t : Nat) :
    grant (x, y) = some (c, a, t) ↔ dhcpGrants x y c a ∧ t = x.2.2 := by
  unfold grant dhcpGrants dhcpReplied dhcpYaddr
  simp only [dhcpClient_eq, dhcpLe32_eq]
  simp only [dhcpOptions_eq]
  by_cases hb : y.2 = true ∧ (y.1 (dhcpOptions x.1 x.2.1 + 2) = 2 ∨ y.1 (dhcpOptions x.1 x.2.1 + 2) = 5)
  · rw [if_pos hb]
    simp only [Option.some.injEq, Prod.mk.injEq, hb.1, true_and, hb.2]
    constructor
    · rintro ⟨h1, h2, h3⟩; exact ⟨⟨h1, h2⟩, h3.symm⟩
    · rintro ⟨⟨h1, h2⟩, h3⟩; exact ⟨h1, h2, h3.symm⟩
  · rw [if_neg hb]
    simp only [reduceCtorEq, false_iff]
    rintro ⟨⟨h1, _⟩, _⟩
    apply hb
    rcases h1 with h1 | h1
    · exact ⟨h1.1, .inl h1.2⟩
    · exact ⟨h1.1, .inr h1.2⟩

theorem dhcpIs_discover (x : DhcpMessage) : isDiscover x.1 x.2.1 = true ↔ dhcpIs x 1 := by
  simp only [isDiscover, dhcpIs, dhcpOptions_eq, decide_eq_true_eq]; exact and_comm

theorem dhcpIs_request (x : DhcpMessage) : isRequest x.1 x.2.1 = true ↔ dhcpIs x 3 := by
  simp only [isRequest, dhcpIs, dhcpOptions_eq, decide_eq_true_eq]; exact and_comm

theorem mem_log (msgs : List DhcpMessage) (rs : List (Mem × Bool)) (j : Nat) (c : List UInt8) (a t : Nat) :
    (c, a, t) ∈ ((msgs.zip rs).take j).filterMap grant ↔
      ∃ (i : Nat), ∃ x y, i < j ∧ msgs[i]? = some x ∧ rs[i]? = some y ∧ dhcpGrants x y c a ∧ t = x.2.2 := by
  rw [List.mem_filterMap]
  simp only [List.mem_iff_getElem?, List.getElem?_take]
  constructor
  · rintro ⟨⟨x, y⟩, ⟨i, hi⟩, hg⟩
    by_cases hij : i < j
    · rw [if_pos hij, List.getElem?_zip_eq_some] at hi
      exact ⟨i, x, y, hij, hi.1, hi.2, (dhcpGrants_iff x y c a t).1 hg⟩
    · rw [if_neg hij] at hi; cases hi
  · rintro ⟨i, x, y, hij, hx, hy, hg⟩
    exact ⟨(x, y), ⟨i, by rw [if_pos hij, List.getElem?_zip_eq_some]; exact ⟨hx, hy⟩⟩, (dhcpGrants_iff x y c a t).2 hg⟩

/-- The messages that C63 is about: in order of time, before the end of time, with the options
apart from the header. -/
structure DhcpMessages (msgs : List DhcpMessage) : Prop where
  sorted : msgs.Pairwise fun x y => x.2.2 ≤ y.2.2
  time : ∀ x ∈ msgs, x.2.2 < 2 ^ 64 - 1
  apart : ∀ x ∈ msgs, dhcpApart x

/-- What C63 says of messages and replies, given the expiration time and the addresses to give out:
- an address that is offered or confirmed to one client is not to another until the expiration time
  has passed;
- every address offered or confirmed is one of the list;
- until the expiration time has passed, a client that was given an address is offered that one when
  it asks for one, its request for that one is confirmed, and its request for any other is denied;
- a client's demand for an address is left unanswered only if each address was offered or confirmed
  to some client and that has not expired;
- a request by a client that was never given an address is left unanswered;
- only requests are confirmed, and with the address requested; only demands get offers. -/
def DhcpLeases (exp : Nat) (ips : List Nat) (msgs : List DhcpMessage) (rs : List (Mem × Bool)) : Prop :=
  rs.length = msgs.length ∧
  ∀ (j : Nat) x y, msgs[j]? = some x → rs[j]? = some y →
    (∀ (i : Nat) x' y' c c' a, i < j → msgs[i]? = some x' → rs[i]? = some y' →
      dhcpGrants x' y' c' a → dhcpGrants x y c a → c' ≠ c → x'.2.2 + exp < x.2.2) ∧
    (∀ c a, dhcpGrants x y c a → a ∈ ips) ∧
    (∀ (i : Nat) x' y' a, i < j → msgs[i]? = some x' → rs[i]? = some y' →
      dhcpGrants x' y' (dhcpClient x) a → x.2.2 ≤ x'.2.2 + exp →
      (dhcpIs x 1 → dhcpReplied x y 2 ∧ dhcpYaddr x y = a) ∧
      (dhcpIs x 3 → dhcpLe32 x.1 (dhcpOptions x.1 x.2.1 + 14) = a → dhcpReplied x y 5 ∧ dhcpYaddr x y = a) ∧
      (dhcpIs x 3 → dhcpLe32 x.1 (dhcpOptions x.1 x.2.1 + 14) ≠ a → dhcpReplied x y 6)) ∧
    (dhcpIs x 1 → y.2 = false → ∀ a ∈ ips, ∃ (i : Nat), ∃ x' y' c', i < j ∧ msgs[i]? = some x' ∧ rs[i]? = some y' ∧
      dhcpGrants x' y' c' a ∧ x.2.2 ≤ x'.2.2 + exp) ∧
    (dhcpIs x 3 → (∀ (i : Nat) x' y' a, i < j → msgs[i]? = some x' → rs[i]? = some y' →
      ¬ dhcpGrants x' y' (dhcpClient x) a) → y.2 = false) ∧
    (dhcpReplied x y 5 → dhcpIs x 3 ∧ dhcpYaddr x y = dhcpLe32 x.1 (dhcpOptions x.1 x.2.1 + 14)) ∧
    (dhcpReplied x y 2 → dhcpIs x 1)

/-- C63 (leases): in every sequence of messages served after initialization with a mask of 3 to 32
host bits, the replies are as in `DhcpLeases`, with the list of `C63_addresses_partial`. -/
theorem C63_leases (items : List (List UInt8 × Nat)) (hit : dhcpItems items) (s : Server)
    (hs : init items = some (some s)) (k : Nat) (h3 : 3 ≤ k) (hk : k ≤ 32) (hm : s.mask = 2 ^ 32 - 2 ^ k)
    (msgs : List DhcpMessage) (hmsg : DhcpMessages msgs) :
    ∃ s' rs, run s msgs = some (s', rs) ∧ DhcpLeases s.exp s.ips msgs rs := by
  have L := dhcp_loginv hit hs h3 hk hm
  obtain ⟨s', rs, h1, h2, h4⟩ := run_spec msgs L
    (fun x hx => ⟨Nat.zero_le _, hmsg.time x hx, by
      have := hmsg.apart x hx
      unfold dhcpApart at this; unfold Apart; rw [dhcpOptions_eq]; exact this⟩) hmsg.sorted
  refine ⟨s', rs, h1, h2, fun j x y hx hy => ?_⟩
  have F := h4 j x y hx hy
  rw [List.nil_append] at F
  refine ⟨?_, ?_, ?_, ?_, ?_, ?_, ?_⟩
  · intro i x' y' c c' a hij hx' hy' hg' hg hne
    exact F.exclusive c a x.2.2 c' x'.2.2 ((dhcpGrants_iff x y c a _).2 ⟨hg, rfl⟩)
      ((mem_log ..).2 ⟨i, x', y', hij, hx', hy', hg', rfl⟩) hne
  · intro c a hg
    exact F.listed c a x.2.2 ((dhcpGrants_iff x y c a _).2 ⟨hg, rfl⟩)
  · intro i x' y' a hij hx' hy' hg' hle
    have hlog : (client x.1 (options x.1 x.2.1), a, x'.2.2) ∈ ((msgs.zip rs).take j).filterMap grant := by
      rw [dhcpClient_eq]; exact (mem_log ..).2 ⟨i, x', y', hij, hx', hy', hg', rfl⟩
    refine ⟨fun hd => ?_, fun hr ha => ?_, fun hr ha => ?_⟩
    · have := F.keptOffer a x'.2.2 hlog hle ((dhcpIs_discover x).2 hd)
      rw [dhcpOptions_eq, dhcpLe32_eq] at this
      exact ⟨⟨this.1, this.2.1⟩, this.2.2⟩
    · have := F.keptAck a x'.2.2 hlog hle ((dhcpIs_request x).2 hr)
      rw [dhcpOptions_eq, dhcpLe32_eq, dhcpLe32_eq, if_pos ha] at this
      exact ⟨⟨this.1, this.2.1⟩, this.2.2⟩
    · have := F.keptAck a x'.2.2 hlog hle ((dhcpIs_request x).2 hr)
      rw [dhcpOptions_eq, dhcpLe32_eq, dhcpLe32_eq, if_neg ha] at this
      exact this
  · intro hd hb a ha
    obtain ⟨c', t', hl, hle⟩ := F.refused ((dhcpIs_discover x).2 hd) hb a ha
    obtain ⟨i, x', y', hij, hx', hy', hg, rfl⟩ := (mem_log ..).1 hl
    exact ⟨i, x', y', c', hij, hx', hy', hg, hle⟩
  · intro hr hno
    refine F.unknown ((dhcpIs_request x).2 hr) fun a t' hl => ?_
    rw [dhcpClient_eq] at hl
    obtain ⟨i, x', y', hij, hx', hy', hg, _⟩ := (mem_log ..).1 hl
    exact hno i x' y' a hij hx' hy' hg
  · intro h5
    have := F.acked h5.1 (by rw [dhcpOptions_eq]; exact h5.2)
    rw [dhcpOptions_eq, dhcpLe32_eq, dhcpLe32_eq] at this
    exact ⟨(dhcpIs_request x).1 this.1, this.2⟩
  · intro h2
    exact (dhcpIs_discover x).1 (F.offered h2.1 (by rw [dhcpOptions_eq]; exact h2.2))

/-- A message at address 0 with options at 1000: `type`, client 0:0:0:0:0:`c`, wanted address `a`. -/
def dhcpMsg (type c : UInt8) (a t : Nat) : DhcpMessage :=
  (fun x => if x = 0 then 1 else if x = 240 then 0xE8 else if x = 241 then 3 else if x = 1002 then type
    else if x = 1011 then c else if x = 1014 then UInt8.ofNat a else if x = 1015 then UInt8.ofNat (a / 256)
    else if x = 1016 then UInt8.ofNat (a / 65536) else if x = 1017 then UInt8.ofNat (a / 16777216) else 0, 0, t)

/-- Which replies a run gives: the type, or 0 for none, and the address. -/
def dhcpRun (items : List (List UInt8 × Nat)) (msgs : List DhcpMessage) : Option (List (UInt8 × Nat)) := do
  match ← init items with
  | none => none
  | some s =>
    let (_, rs) ← run s msgs
    some ((msgs.zip rs).map fun z =>
      if z.2.2 then (z.2.1 (dhcpOptions z.1.1 z.1.2.1 + 2), dhcpYaddr z.1 z.2) else (0, 0))

theorem dhcpMsg_options (type c : UInt8) (a t : Nat) : dhcpOptions (dhcpMsg type c a t).1 0 = 1000 := by
  simp [dhcpOptions, dhcpLe32, dhcpMsg]

/-- Offers, a confirmation, a denial, a refusal when the three addresses are taken, and the reuse of
an expired one. -/
example : DhcpMessages [dhcpMsg 1 7 0 5, dhcpMsg 3 7 3221357305 6, dhcpMsg 3 7 3221357306 6, dhcpMsg 1 8 0 7,
      dhcpMsg 1 9 0 8, dhcpMsg 1 10 0 9, dhcpMsg 1 10 0 90000] ∧
    dhcpRun (dhcpSample (2 ^ 32 - 2 ^ 3) 10) [dhcpMsg 1 7 0 5, dhcpMsg 3 7 3221357305 6, dhcpMsg 3 7 3221357306 6,
      dhcpMsg 1 8 0 7, dhcpMsg 1 9 0 8, dhcpMsg 1 10 0 9, dhcpMsg 1 10 0 90000] =
    some [(2, 3221357305), (5, 3221357305), (6, 0), (2, 3221357306), (2, 3221357307), (0, 0), (2, 3221357307)] := by
  refine ⟨⟨by simp [dhcpMsg], by simp [dhcpMsg], ?_⟩, rfl⟩
  intro x hx
  simp only [List.mem_cons, List.not_mem_nil, or_false] at hx
  rcases hx with rfl | rfl | rfl | rfl | rfl | rfl | rfl <;>
    (unfold dhcpApart; right; show 0 + 248 ≤ dhcpOptions (dhcpMsg _ _ _ _).1 0; rw [dhcpMsg_options]; omega)

/-- Disagreement: with a mask of one or two host bits the count of addresses underflows, so that
more connections are allowed than there are addresses; nearly all of the array stays 0, and three
clients that ask at about the same time are all offered 0.0.0.0. With the mask and address both
255.255.255.255 the array has addresses outside the subnet. -/
theorem C63_addresses_wrong :
    (∃ s, init (dhcpSample (2 ^ 32 - 2 ^ 2) 10) = some (some s) ∧
      s.ips = [3221357309, 0, 0, 0, 0, 0, 0, 0, 0, 0]) ∧
    (∃ s, init (dhcpSample (2 ^ 32 - 2 ^ 1) 10) = some (some s) ∧ s.ips = List.replicate 10 0) ∧
    dhcpRun (dhcpSample (2 ^ 32 - 2 ^ 1) 10) [dhcpMsg 1 7 0 5, dhcpMsg 1 8 0 6, dhcpMsg 1 9 0 7] =
      some [(2, 0), (2, 0), (2, 0)] ∧
    ∃ r, setup 3 0xFFFFFFFF 0xFFFFFFFF 7 8 86400 0 = some (some r) ∧ r.ips = [0, 1, 2] :=
  ⟨⟨_, rfl, rfl⟩, ⟨_, rfl, rfl⟩, rfl, ⟨_, rfl, rfl⟩⟩

/-- The bytes of `v`, least significant first. -/
def dhcpBytes (v : Nat) : List UInt8 :=
  [UInt8.ofNat v, UInt8.ofNat (v / 256), UInt8.ofNat (v / 65536), UInt8.ofNat (v / 16777216)]

/-- What C63 says of an offer (type 2) or confirmation (type 5): it is marked as a reply, the options
name the server, mask, lease time, gateway and name server, and no other byte differs from the
message except the four of the address. -/
structure DhcpPositive (s : Server) (x : DhcpMessage) (m' : Mem) (type : UInt8) : Prop where
  op : m' x.2.1 = 2
  opts : (List.range 32).map (fun i => m' (dhcpOptions x.1 x.2.1 + 2 + i)) =
    [type] ++ [54, 4] ++ dhcpBytes s.serverIp ++ [1, 4] ++ dhcpBytes s.mask ++ [51, 4] ++ dhcpBytes s.exp ++
      [3, 4] ++ dhcpBytes s.gateway ++ [6, 4] ++ dhcpBytes s.dns ++ [255]
  rest : ∀ a, a ≠ x.2.1 → (a < x.2.1 + 16 ∨ x.2.1 + 20 ≤ a) →
    (a < dhcpOptions x.1 x.2.1 + 2 ∨ dhcpOptions x.1 x.2.1 + 34 ≤ a) → m' a = x.1 a

theorem dhcpPositive_of {s : Server} {m m' : Mem} {h t ip : Nat} {type : UInt8} (R : Replied s m m' h ip type) :
    DhcpPositive s (m, h, t) m' type := by
  refine ⟨R.op, ?_, ?_⟩
  · have := R.opts
    rw [dhcpOptions_eq] at this
    refine this.trans ?_
    simp [optionBytes, dhcpBytes, List.range, List.range.loop]
  · have := R.rest
    rw [dhcpOptions_eq] at this
    exact this

/-- C63 (replies): whatever the state of the server, an answered demand is an offer as in
`DhcpPositive`, an answered request is a confirmation as in `DhcpPositive`, or a denial, which only
changes the message type and sets the byte after it to the end mark. -/
theorem C63_replies (s : Server) (x : DhcpMessage) (ha : dhcpApart x) (s' : Server) (m' : Mem)
    (hr : serve s x.1 x.2.1 x.2.2 = some (s', m', true)) :
    (dhcpIs x 1 ∧ DhcpPositive s x m' 2) ∨ (dhcpIs x 3 ∧ DhcpPositive s x m' 5) ∨
    (dhcpIs x 3 ∧ m' (dhcpOptions x.1 x.2.1 + 2) = 6 ∧ m' (dhcpOptions x.1 x.2.1 + 3) = 255 ∧
      ∀ a, a ≠ dhcpOptions x.1 x.2.1 + 2 → a ≠ dhcpOptions x.1 x.2.1 + 3 → m' a = x.1 a) := by
  obtain ⟨m, h, t⟩ := x
  have hap : Apart m h := by unfold Apart; rw [dhcpOptions_eq]; exact ha
  unfold serve at hr
  by_cases hd : isDiscover m h = true
  · left
    refine ⟨(dhcpIs_discover (m, h, t)).1 hd, ?_⟩
    simp only [hd, ↓reduceIte, discover] at hr
    cases hg : s.table.map.get (client m (options m h)) with
    | some i =>
      simp only [hg, Option.bind_eq_bind, Option.bind_eq_some_iff, Option.some.injEq, Prod.mk.injEq] at hr
      obtain ⟨tb, _, ip, _, _, rfl, _⟩ := hr
      exact dhcpPositive_of (offer_spec s m h ip hap)
    | none =>
      simp only [hg, Option.bind_eq_bind, Option.bind_eq_some_iff] at hr
      obtain ⟨⟨tb, r⟩, _, h2⟩ := hr
      cases r with
      | none => simp at h2
      | some i =>
        simp only [Option.bind_eq_some_iff, Option.some.injEq, Prod.mk.injEq] at h2
        obtain ⟨ip, _, _, rfl, _⟩ := h2
        exact dhcpPositive_of (offer_spec s m h ip hap)
  · right
    have hq : isRequest m h = true := by
      by_contra hq
      simp [hd, hq] at hr
    have hi := (dhcpIs_request (m, h, t)).1 hq
    simp only [hd, hq, ↓reduceIte, request, Bool.false_eq_true] at hr
    cases hg : s.table.map.get (client m (options m h)) with
    | none => simp [hg] at hr
    | some i =>
      simp only [hg, Option.bind_eq_bind, Option.bind_eq_some_iff] at hr
      obtain ⟨ip, _, h2⟩ := hr
      by_cases he : ip = ld32 m (options m h + 14)
      · simp only [if_pos he, Option.bind_eq_some_iff, Option.some.injEq, Prod.mk.injEq] at h2
        obtain ⟨tb, _, _, rfl, _⟩ := h2
        exact .inl ⟨hi, dhcpPositive_of (createAck_spec s m h ip hap)⟩
      · simp only [if_neg he, Option.some.injEq, Prod.mk.injEq] at h2
        obtain ⟨_, rfl, _⟩ := h2
        refine .inr ⟨hi, ?_, ?_, ?_⟩
        · rw [dhcpOptions_eq]; exact setNack_spec _ _
        · simp [setNack, Memory.store, dhcpOptions_eq]
        · intro a h1 h2
          simp only [setNack, dhcpOptions_eq]
          rw [store_ne h2, store_ne h1]

/-- An offer, a confirmation and a denial do happen: see the run above. -/
example : dhcpApart (dhcpMsg 1 7 0 5) ∧ dhcpIs (dhcpMsg 1 7 0 5) 1 ∧ dhcpIs (dhcpMsg 3 7 9 5) 3 := by
  refine ⟨?_, ⟨rfl, rfl⟩, ⟨rfl, rfl⟩⟩
  right; show 0 + 248 ≤ dhcpOptions (dhcpMsg _ _ _ _).1 0; rw [dhcpMsg_options]; omega

/-- Disagreement: a denial is not marked as a reply; its operation code is still that of a
request. For every state and message. -/
theorem C63_denial_wrong (s : Server) (x : DhcpMessage) (ha : dhcpApart x) (s' : Server) (m' : Mem)
    (hr : serve s x.1 x.2.1 x.2.2 = some (s', m', true)) (h6 : m' (dhcpOptions x.1 x.2.1 + 2) = 6) : m' x.2.1 = 1 := by
  rcases C63_replies s x ha s' m' hr with ⟨_, h⟩ | ⟨_, h⟩ | ⟨h1, _, _, h4⟩
  · exfalso
    have := congrArg (fun l => l[0]?) h.opts
    simp [h6] at this
  · exfalso
    have := congrArg (fun l => l[0]?) h.opts
    simp [h6] at this
  · rw [h4 _ (by unfold dhcpApart at ha; omega) (by unfold dhcpApart at ha; omega)]
    exact h1.1

/-- Denials do happen. -/
example : (do
    match ← init (dhcpSample (2 ^ 32 - 2 ^ 3) 10) with
    | none => none
    | some s =>
      let (_, rs) ← run s [dhcpMsg 1 7 0 5, dhcpMsg 3 7 3221357306 6]
      some (rs.map fun y => (y.2, y.1 0, y.1 1002))) = some [(true, 2, 2), (true, 1, 6)] := rfl

/-- Disagreement: addresses are stored least significant byte first, but on the wire an address has
its most significant byte first; what the client reads is not an address of the list, nor in the
server's subnet. -/
theorem C63_byte_order_wrong :
    (do
      match ← init (dhcpSample (2 ^ 32 - 2 ^ 8) 10) with
      | none => none
      | some s =>
        let (_, rs) ← run s [dhcpMsg 1 7 0 5]
        let (m', b) ← rs[0]?
        let wire := 16777216 * (m' 16).toNat + 65536 * (m' 17).toNat + 256 * (m' 18).toNat + (m' 19).toNat
        some (b, wire, decide (wire ∈ s.ips), decide (wire / 2 ^ 8 = s.serverIp / 2 ^ 8))) =
      some (true, 0x030202C0, false, false) := rfl

/-- Disagreement: the options are reached through a pointer made of the packet's own bytes, so what
the server does depends on memory outside the packet: for every address there is a packet that
makes the server look there. -/
theorem C63_options_wrong (h a : Nat) (ha : a < 2 ^ 64) (hout : a + 2 < h ∨ h + 65536 ≤ a) :
    ∃ m₁ m₂ : Mem, (∀ i < 65536, m₁ (h + i) = m₂ (h + i)) ∧ m₁ (h + 240) = UInt8.ofNat a ∧
      isDiscover m₁ h = true ∧ isDiscover m₂ h = false := by
  let base : Mem := fun x => if x = h then 1 else if h + 240 ≤ x ∧ x < h + 248 then UInt8.ofNat (a / 256 ^ (x - (h + 240))) else 0
  have hb : ∀ (i : Nat) (v : UInt8), i < 8 → Memory.store base (a + 2) v (h + 240 + i) = UInt8.ofNat (a / 256 ^ i) := by
    intro i v hi
    rw [store_ne (by omega)]
    simp only [base]
    rw [if_neg (by omega), if_pos (by omega), show h + 240 + i - (h + 240) = i by omega]
  have ho : ∀ v : UInt8, options (Memory.store base (a + 2) v) h = a := by
    intro v
    rw [dhcpOptions_eq]
    have h0 := hb 0 v (by omega)
    have h1 := hb 1 v (by omega)
    have h2 := hb 2 v (by omega)
    have h3 := hb 3 v (by omega)
    have h4 := hb 4 v (by omega)
    have h5 := hb 5 v (by omega)
    have h6 := hb 6 v (by omega)
    have h7 := hb 7 v (by omega)
    simp only [Nat.add_assoc, Nat.reduceAdd, Nat.reducePow, Nat.add_zero, Nat.div_one] at h0 h1 h2 h3 h4 h5 h6 h7
    simp only [dhcpOptions, dhcpLe32, Nat.add_assoc, Nat.reduceAdd, h0, h1, h2, h3, h4, h5, h6, h7, UInt8.toNat_ofNat',
      Nat.reducePow]
    omega
  have hh : ∀ v : UInt8, Memory.store base (a + 2) v h = 1 := by
    intro v; rw [store_ne (by omega)]; simp [base]
  refine ⟨Memory.store base (a + 2) 1, Memory.store base (a + 2) 0, ?_, ?_, ?_, ?_⟩
  · intro i hi; rw [store_ne (by omega), store_ne (by omega)]
  · have := hb 0 1 (by omega); simpa using this
  · simp only [isDiscover, ho, hh, store_eq]; decide
  · simp only [isDiscover, ho, hh, store_eq]; decide

/-- C63 (as built): nf_handle sends nothing and leaves the state alone, whatever the packet: the
code that would answer is commented out. -/
theorem C63_silent (s : Server) (p : Packet) (s' : Server) (out : List Out) (h : handle s p = some (s', out)) :
    s' = s ∧ out = [] := by
  simp only [handle, Option.bind_eq_bind, Option.bind_eq_some_iff] at h
  obtain ⟨w, _, h⟩ := h
  by_cases hw : w ≠ 0x0008
  · rw [if_pos hw] at h; cases h; exact ⟨rfl, rfl⟩
  · rw [if_neg hw] at h
    simp only [Option.bind_eq_some_iff] at h
    obtain ⟨g, _, h⟩ := h
    cases g with
    | none => cases h; exact ⟨rfl, rfl⟩
    | some _ =>
      simp only [Option.bind_eq_some_iff] at h
      obtain ⟨b, _, h⟩ := h
      rw [ite_self] at h
      cases h; exact ⟨rfl, rfl⟩

theorem dhcp_word {p : Packet} {a w : Nat} (h : word? p a = some w) :
    w = (p.data a).toNat + 256 * (p.data (a + 1)).toNat := by
  simp only [word?, byte?, Option.bind_eq_bind, Option.bind_eq_some_iff] at h
  obtain ⟨lo, hlo, hi, hhi, hd⟩ := h
  split at hlo
  · split at hhi
    · cases hlo; cases hhi; cases hd; rfl
    · cases hhi
  · cases hlo

/-- Disagreement: no packet sent to the DHCP server's port, 67 in network order, is recognised as a
DHCP message, as the ports are compared without swapping their bytes. -/
theorem C63_port_wrong (p : Packet) (hp : (p.data 36).toNat = 0 ∧ (p.data 37).toNat = 67) (r : Option Nat)
    (h : getDhcpHeader p 14 = some r) : r = none := by
  simp only [getDhcpHeader, Option.bind_eq_bind, Option.bind_eq_some_iff] at h
  obtain ⟨b, _, h⟩ := h
  by_cases h1 : b ≠ 17
  · rw [if_pos h1] at h; cases h; rfl
  rw [if_neg h1] at h
  simp only [Option.bind_eq_some_iff] at h
  obtain ⟨d, hd, h⟩ := h
  have : d = 67 * 256 := by
    have := dhcp_word (a := 36) hd
    have e1 := hp.1
    have e2 := hp.2
    simp only [Nat.reduceAdd] at this
    omega
  rw [if_pos (by omega)] at h
  cases h; rfl

/-- A packet of `n` zero bytes but for the given ones. -/
def dhcpPacket (n : Nat) (bytes : List (Nat × UInt8)) : Packet :=
  { data := fun a => (bytes.lookup a).getD 0, length := n, time := 0, device := 0 }

/-- A DHCP message as clients send it is read and not recognised. -/
example : getDhcpHeader (dhcpPacket 300 [(12, 8), (23, 17), (35, 68), (37, 67), (278, 0x63), (279, 0x82), (280, 0x53),
    (281, 0x63)]) 14 = some none := rfl

/-- With its bytes swapped it is: the claim is not true of all packets. -/
example : getDhcpHeader (dhcpPacket 300 [(12, 8), (23, 17), (34, 68), (36, 67), (278, 0x63), (279, 0x53), (280, 0x82),
    (281, 0x63)]) 14 = some (some 42) := rfl

/-- C63 (bounds), partial: in a packet of at least 38 bytes, nf_handle reads past the end exactly if
the packet is IPv4, UDP, has the bytes 67, 0 and 68, 0 for ports, and is shorter than 282 bytes.
Missing: that it never does, see `C63_overread_wrong`. -/
theorem C63_bounds_partial (s : Server) (p : Packet) (hl : 38 ≤ p.length) :
    handle s p = none ↔ p.length < 282 ∧ p.data 12 = 8 ∧ p.data 13 = 0 ∧ p.data 23 = 17 ∧
      p.data 36 = 67 ∧ p.data 37 = 0 ∧ p.data 34 = 68 ∧ p.data 35 = 0 := by
  have hb : ∀ a < 38, byte? p a = some (p.data a).toNat := fun a ha => if_pos (by omega)
  have hw : ∀ a < 37, word? p a = some ((p.data a).toNat + 256 * (p.data (a + 1)).toNat) := by
    intro a ha
    simp only [word?, hb a (by omega), hb (a + 1) (by omega), Option.bind_eq_bind, Option.bind_some]
  have hlt : ∀ a, (p.data a).toNat < 256 := fun a => UInt8.toNat_lt _
  have hw2 : ∀ a (lo hi : UInt8), (p.data a).toNat + 256 * (p.data (a + 1)).toNat = lo.toNat + 256 * hi.toNat ↔
      p.data a = lo ∧ p.data (a + 1) = hi := by
    intro a lo hi
    rw [← UInt8.toNat_inj, ← UInt8.toNat_inj]
    have := hlt a
    have := hlt (a + 1)
    have := UInt8.toNat_lt lo
    have := UInt8.toNat_lt hi
    omega
  have hd : dword? p 278 = none ↔ p.length < 282 := by
    simp only [dword?, word?, byte?, Nat.reduceAdd, Option.bind_eq_bind]
    by_cases h : p.length < 282
    · simp only [h, iff_true]
      rcases Nat.lt_or_ge 278 p.length with h1 | h1
      · rcases Nat.lt_or_ge 279 p.length with h2 | h2
        · rcases Nat.lt_or_ge 280 p.length with h3 | h3
          · simp [h1, h2, h3, show ¬ 281 < p.length by omega]
          · simp [h1, h2, show ¬ 280 < p.length by omega]
        · simp [h1, show ¬ 279 < p.length by omega]
      · simp [show ¬ 278 < p.length by omega]
    · simp [h, show 278 < p.length by omega, show 279 < p.length by omega, show 280 < p.length by omega,
        show 281 < p.length by omega]
  have e12 := hw2 12 8 0
  have e36 := hw2 36 67 0
  have e34 := hw2 34 68 0
  have e23 : (p.data 23).toNat = 17 ↔ p.data 23 = 17 := by rw [← UInt8.toNat_inj]; rfl
  simp only [show (8 : UInt8).toNat = 8 from rfl, show (0 : UInt8).toNat = 0 from rfl, show (67 : UInt8).toNat = 67 from rfl,
    show (68 : UInt8).toNat = 68 from rfl, Nat.mul_zero, Nat.add_zero, Nat.reduceAdd] at e12 e36 e34
  simp only [handle, getDhcpHeader, etherSize, ipv4Size, Nat.reduceAdd, hw 12 (by omega), hw 36 (by omega), hw 34 (by omega),
    hb 23 (by omega), Option.bind_eq_bind, Option.bind_some, ne_eq, e12, e36, e34, e23, ite_self]
  by_cases h1 : p.data 12 = 8 ∧ p.data 13 = 0
  · by_cases h2 : p.data 23 = 17
    · by_cases h3 : p.data 36 = 67 ∧ p.data 37 = 0
      · by_cases h4 : p.data 34 = 68 ∧ p.data 35 = 0
        · simp only [h1, h2, h3, h4, not_true_eq_false, and_self, ↓reduceIte, and_true]
          rw [← hd]
          cases hq : dword? p 278 with
          | none => simp
          | some v =>
            by_cases hv : v = 0x63825363
            · simp [hv]
            · simp [hv]
        · simp [h1, h2, h3, h4]
      · simp [h1, h2, h3]; intros; simp_all
    · simp [h1, h2]
  · simp [h1]
    intros; simp_all

/-- Disagreement: a packet of the least length that Ethernet allows makes nf_handle read past its
end. -/
theorem C63_overread_wrong (s : Server) : ∃ p : Packet, 60 ≤ p.length ∧ handle s p = none := by
  refine ⟨dhcpPacket 60 [(12, 8), (23, 17), (34, 68), (36, 67)], by decide, ?_⟩
  rw [C63_bounds_partial s _ (by decide)]
  decide

end Verif.Props
