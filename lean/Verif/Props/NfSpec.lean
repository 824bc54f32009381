/- Property C62: the network functions keep the specifications shipped with them. -/
import Verif.Tool.NfSpec
import Verif.Nf.NatProofs
import Verif.Nf.ExpiringProofs
import Verif.Props.Nat
import Verif.Props.Bridge
import Verif.Props.Maglev
import Verif.Props.Router
import Verif.Nf.Policer

set_option autoImplicit false

namespace Verif.Props
open Verif.Nf (Packet Flow Table Out)
open Verif.PacketSpec (isIpv4 isTcpUdp flow byte word dword)
open Verif.IndexPoolSpec (timeMax)
open Verif.Nf.Maglev (Balancer)
open Verif.Props.MaglevSpec (next live isClient)
open Verif.NfSpec (Holds Keeps Header Sent ExpiringSet PyMap expiringSet transmitted)

namespace NfSpecProofs

/-! ### Fields -/

theorem chunks_lt (p : Packet) (i : Nat) : ∀ n, NfSpec.chunks p i n < 2 ^ (8 * n)
  | 0 => by simp [NfSpec.chunks]
  | n + 1 => by
    have h1 := chunks_lt p i n
    have h2 : (p.data (i + n)).toNat < 256 := UInt8.toNat_lt _
    have h3 : 2 ^ (8 * (n + 1)) = 2 ^ (8 * n) * 256 := by rw [Nat.mul_add, Nat.pow_add]
    have h4 : 2 ^ (8 * n) * (p.data (i + n)).toNat ≤ 2 ^ (8 * n) * 255 := Nat.mul_le_mul_left _ (by omega)
    rw [NfSpec.chunks, h3]
    omega

theorem chunks1 (p : Packet) (i : Nat) : NfSpec.chunks p i 1 = byte p i := by simp [NfSpec.chunks, byte]
theorem chunks2 (p : Packet) (i : Nat) : NfSpec.chunks p i 2 = word p i := by simp [NfSpec.chunks, byte, word]
theorem chunks4 (p : Packet) (i : Nat) : NfSpec.chunks p i 4 = dword p i := by
  simp [NfSpec.chunks, byte, dword]
theorem chunks6 (p : Packet) (i : Nat) : NfSpec.chunks p i 6 = BridgeSpec.addr p i := by
  simp only [NfSpec.chunks, BridgeSpec.addr, byte, dword, word]; simp only [Nat.add_assoc]; norm_num; omega

/-- The fields of the IPv4 header. -/
def ipHeader (p : Packet) : Header :=
  ⟨p, 112, [("ihl", 4), ("version", 4), ("dscp", 6), ("ecn", 2), ("total_length", 16),
      ("identification", 16), ("flags", 3), ("fragment_offset", 13), ("time_to_live", 8), ("protocol", 8),
      ("checksum", 16), ("src", 32), ("dst", 32)]⟩
def l4Header (p : Packet) : Header := ⟨p, 272, [("src", 16), ("dst", 16)]⟩

theorem ether_dst (p : Packet) : (NfSpec.ether p).get "dst" = some (BridgeSpec.addr p 0) := by
  have := chunks_lt p 0 6
  simp [Header.get, NfSpec.ether, NfSpec.getattr, NfSpec.MTU, ← chunks6]
  omega
theorem ether_type (p : Packet) : (NfSpec.ether p).get "type" = some (word p 12) := by
  have := chunks_lt p 12 2
  simp [Header.get, NfSpec.ether, NfSpec.getattr, NfSpec.MTU, ← chunks2]
  omega
theorem ip_src (p : Packet) : (ipHeader p).get "src" = some (dword p 26) := by
  have := chunks_lt p 26 4
  simp [Header.get, ipHeader, NfSpec.getattr, NfSpec.MTU, ← chunks4]
  omega
theorem ip_dst (p : Packet) : (ipHeader p).get "dst" = some (dword p 30) := by
  have := chunks_lt p 30 4
  simp [Header.get, ipHeader, NfSpec.getattr, NfSpec.MTU, ← chunks4]
  omega
theorem ip_protocol (p : Packet) : (ipHeader p).get "protocol" = some (byte p 23) := by
  have := chunks_lt p 23 1
  simp [Header.get, ipHeader, NfSpec.getattr, NfSpec.MTU, ← chunks1]
  omega
theorem ip_ttl (p : Packet) : (ipHeader p).get "time_to_live" = some (byte p 22) := by
  have := chunks_lt p 22 1
  simp [Header.get, ipHeader, NfSpec.getattr, NfSpec.MTU, ← chunks1]
  omega
theorem ip_ihl (p : Packet) : (ipHeader p).get "ihl" = some (byte p 14 % 16) := by
  simp [Header.get, ipHeader, NfSpec.getattr, NfSpec.MTU, ← chunks1]
theorem ip_version (p : Packet) : (ipHeader p).get "version" = some (byte p 14 / 16) := by
  have := chunks_lt p 14 1
  simp [Header.get, ipHeader, NfSpec.getattr, NfSpec.MTU, ← chunks1]
  omega
theorem ip_total (p : Packet) : (ipHeader p).get "total_length" = some (word p 16) := by
  have := chunks_lt p 16 2
  simp [Header.get, ipHeader, NfSpec.getattr, NfSpec.MTU, ← chunks2]
  omega
theorem ip_checksum (p : Packet) : (ipHeader p).get "checksum" = some (word p 24) := by
  have := chunks_lt p 24 2
  simp [Header.get, ipHeader, NfSpec.getattr, NfSpec.MTU, ← chunks2]
  omega
theorem l4_src (p : Packet) : (l4Header p).get "src" = some (word p 34) := by
  have := chunks_lt p 34 2
  simp [Header.get, l4Header, NfSpec.getattr, NfSpec.MTU, ← chunks2]
  omega
theorem l4_dst (p : Packet) : (l4Header p).get "dst" = some (word p 36) := by
  have := chunks_lt p 36 2
  simp [Header.get, l4Header, NfSpec.getattr, NfSpec.MTU, ← chunks2]
  omega

theorem ipv4_eq (p : Packet) : NfSpec.ipv4 p = some (if isIpv4 p then some (ipHeader p) else none) := by
  have h1 : byte p 12 < 256 := UInt8.toNat_lt _
  have h2 : byte p 13 < 256 := UInt8.toNat_lt _
  have e : word p 12 = 8 ↔ isIpv4 p := by
    simp only [word, isIpv4, show 12 + 1 = 13 from rfl]; omega
  simp only [NfSpec.ipv4, ether_type, Option.bind_eq_bind, Option.bind_some, e]
  by_cases h : isIpv4 p
  · rw [if_pos h, if_pos h]; rfl
  · rw [if_neg h, if_neg h]

theorem tcpudp_eq (p : Packet) : NfSpec.tcpudp p = some (if isTcpUdp p then some (l4Header p) else none) := by
  simp only [NfSpec.tcpudp, ipv4_eq, Option.bind_eq_bind, Option.bind_some]
  by_cases h : isIpv4 p
  · simp only [h, if_true, ip_protocol, Option.bind_some, isTcpUdp, true_and]
    by_cases h4 : byte p 23 = 6 ∨ byte p 23 = 17
    · rw [if_pos h4, if_pos h4]; rfl
    · rw [if_neg h4, if_neg h4]
  · have : ¬ isTcpUdp p := fun h4 => h h4.1
    simp only [h, this, if_false]

theorem flowOf_eq (p : Packet) : NfSpec.flowOf (ipHeader p) (l4Header p) = some (flow p) := by
  simp only [NfSpec.flowOf, ip_src, ip_dst, ip_protocol, l4_src, l4_dst, Option.bind_eq_bind, Option.bind_some, flow]
theorem flowBack_eq (p : Packet) : NfSpec.flowBack (ipHeader p) (l4Header p) = some (PacketSpec.reverse (flow p)) := by
  simp only [NfSpec.flowBack, ip_src, ip_dst, ip_protocol, l4_src, l4_dst, Option.bind_eq_bind, Option.bind_some, flow,
    PacketSpec.reverse]

/-! ### Sets -/

variable {K : Type} [DecidableEq K]

theorem young_iff (t exp v : Nat) (ht : t < 2 ^ 64) :
    (t < exp ∨ NfSpec.sub64 t exp ≤ v) ↔ Expiring.fresh exp t v = true := by
  simp only [Expiring.fresh, NfSpec.sub64, decide_eq_true_eq]
  omega

theorem young_spec (t exp v : Nat) (ht : t < 2 ^ 64) :
    decide (t < exp ∨ NfSpec.sub64 t exp ≤ v) = Expiring.fresh exp t v := by
  rw [Bool.eq_iff_iff, decide_eq_true_iff]; exact young_iff t exp v ht

theorem has_eq {size exp : Nat} {tb : Table K} (inv : Nf.Inv size exp tb) {t : Nat} (ht : t < timeMax) (k : K) :
    (expiringSet exp size t tb).has k =
      some (match Nf.look tb k with | none => false | some (_, v) => Expiring.fresh exp t v) := by
  have ht : t < 2 ^ 64 := by simp only [timeMax] at ht; omega
  simp only [ExpiringSet.has, Nf.look]
  cases hg : tb.map.values.get k with
  | none => rfl
  | some i =>
    obtain ⟨v, hv⟩ := Nf.values_stamp inv hg
    simp only [hv, Option.bind_some, Option.map_some, Option.bind_eq_bind, young_spec _ _ _ ht]

theorem didRefresh_of {size exp cap : Nat} {tb : Table K} (inv : Nf.Inv size exp tb) {t i : Nat} {k : K}
    (h : Nf.look tb k = some (i, t)) : (expiringSet exp cap t tb).didRefresh k = some true := by
  obtain ⟨h1, h2⟩ := Nf.look_some inv h
  have h1 : tb.map.values.get k = some i := h1
  simp only [ExpiringSet.didRefresh, h1, h2, Option.bind_eq_bind, Option.bind_some, decide_true]

theorem getByIndex_eq {size exp cap : Nat} {tb : Table K} (inv : Nf.Inv size exp tb) {t : Nat} (ht : t < timeMax) (i : Nat) :
    (expiringSet exp cap t tb).getByIndex i = some (match Nf.stamp tb.pool i with
      | none => none
      | some v => if Expiring.fresh exp t v then tb.keys[i]? else none) := by
  have ht : t < 2 ^ 64 := by simp only [timeMax] at ht; omega
  simp only [ExpiringSet.getByIndex]
  cases hs : Nf.stamp tb.pool i with
  | none => rfl
  | some v =>
    simp only
    have hy := young_iff t exp v ht
    cases hf : Expiring.fresh exp t v with
    | false =>
      rw [hf] at hy
      have hc : t ≥ exp ∧ NfSpec.sub64 t exp > v := by
        have := hy.not.2 (by simp)
        omega
      rw [if_pos hc]; rfl
    | true =>
      have hc : ¬ (t ≥ exp ∧ NfSpec.sub64 t exp > v) := by
        have := hy.2 hf
        omega
      rw [if_neg hc]
      obtain ⟨k, hk, hl⟩ := Nf.owner inv hs
      have h1 : tb.map.values.get k = some i := (Nf.look_some inv hl).1
      simp only [hk, h1, Option.bind_eq_bind, Option.bind_some, if_true]

/-- Every index has an owner in use: the set is full. -/
theorem full_of {size exp : Nat} {tb : Table K} (inv : Nf.Inv size exp tb) {t : Nat} (ht : t < timeMax)
    (h : ∀ i < size, ∃ k v, Nf.look tb k = some (i, v) ∧ IndexPoolSpec.young t exp v = true) :
    (expiringSet exp size t tb).full := by
  have ht : t < 2 ^ 64 := by simp only [timeMax] at ht; omega
  constructor
  · apply Nat.le_antisymm
    · have hnd : (tb.map.values.map Prod.snd).Nodup := by
        have hd := inv.distinct
        unfold GMap.Distinct at hd
        apply List.Nodup.map_on _ (List.Nodup.of_map _ hd)
        rintro ⟨k, j⟩ hx ⟨k', j'⟩ hy (he : j = j')
        subst he
        have a := ((inv.link k j).1 (GMap.mem_get inv.distinct hx)).2
        have b := ((inv.link k' j).1 (GMap.mem_get inv.distinct hy)).2
        rw [a] at b; cases b; rfl
      have hsub : (tb.map.values.map Prod.snd) ⊆ List.range size := by
        intro j hj
        obtain ⟨⟨k, j⟩, hx, rfl⟩ := List.mem_map.1 hj
        exact List.mem_range.2 (Nf.stamp_lt inv ((inv.link k j).1 (GMap.mem_get inv.distinct hx)).1)
      simpa using (List.subperm_of_subset hnd hsub).length_le
    · have hsub : List.range size ⊆ tb.map.values.map Prod.snd := by
        intro i hi
        obtain ⟨k, v, hl, _⟩ := h i (List.mem_range.1 hi)
        exact List.mem_map.2 ⟨(k, i), GMap.get_some_mem (Nf.look_some inv hl).1, rfl⟩
      simpa using (List.subperm_of_subset List.nodup_range hsub).length_le
  · intro i v hv
    simp only at hv ⊢
    obtain ⟨k, v', hl, hy⟩ := h i (Nf.stamp_lt inv (by rw [hv]; simp))
    have := (Nf.look_some inv hl).2
    rw [hv] at this; cases this
    rw [← Nf.fresh_eq_young, ← young_spec _ _ _ ht] at hy
    simpa using hy

theorem otherSide_eq (p : Packet) : NfSpec.otherSide p = Nf.otherDevice p := rfl

theorem not_ip {p : Packet} (h : ¬ isTcpUdp p) :
    Nf.getIpv4Header p.data (Nf.getEtherHeader p) = none ∨
      (Nf.getIpv4Header p.data (Nf.getEtherHeader p) = some 14 ∧ Nf.getTcpudpHeader p.data 14 = none) := by
  by_cases hip : isIpv4 p
  · right; rw [Nf.getIpv4Header_eq, Nf.getTcpudpHeader_eq p hip, if_pos hip, if_neg h]; exact ⟨rfl, rfl⟩
  · left; rw [Nf.getIpv4Header_eq, if_neg hip]

theorem is_ip {p : Packet} (h : isTcpUdp p) :
    Nf.getIpv4Header p.data (Nf.getEtherHeader p) = some 14 ∧ Nf.getTcpudpHeader p.data 14 = some 34 := by
  rw [Nf.getIpv4Header_eq, Nf.getTcpudpHeader_eq p h.1, if_pos h.1, if_pos h]; exact ⟨rfl, rfl⟩

theorem flow_eq (p : Packet) : (⟨Nf.ld32 p.data (14 + 12), Nf.ld32 p.data (14 + 16), Nf.ld16 p.data 34, Nf.ld16 p.data (34 + 2),
    (p.data (14 + 9)).toNat⟩ : Flow) = flow p := by
  simp only [Nf.ld32_dword, Nf.ld16_word, flow, byte]

theorem back_eq (p : Packet) : (⟨Nf.ld32 p.data (14 + 16), Nf.ld32 p.data (14 + 12), Nf.ld16 p.data (34 + 2), Nf.ld16 p.data 34,
    (p.data (14 + 9)).toNat⟩ : Flow) = PacketSpec.reverse (flow p) := by
  simp only [Nf.ld32_dword, Nf.ld16_word, flow, byte, PacketSpec.reverse]

/-- Learning a flow leaves it in the set, unless the set was full. -/
theorem learnInternal_spec {size exp : Nat} {tb : Table Flow} (inv : Nf.Inv size exp tb) {t : Nat} (ht : t < timeMax)
    (f : Flow) : ∃ tb', Nf.Firewall.learnInternal tb t f = some tb' ∧ Nf.Inv size exp tb' ∧
      ∃ b, (expiringSet exp size t tb').has f = some b ∧ (b = false → (expiringSet exp size t tb).full) := by
  unfold Nf.Firewall.learnInternal
  cases hg : tb.map.get f with
  | some i =>
    obtain ⟨v, _, hl⟩ := Nf.look_of_get inv hg
    obtain ⟨tb', h1, h2, _, _, h3⟩ := Nf.refresh_spec inv hl ht
    refine ⟨tb', h1, h2, _, has_eq h2 ht f, ?_⟩
    rw [h3, if_pos rfl]
    simp [Nf.fresh_self]
  | none =>
    obtain ⟨tb', r, h1, h2, h3⟩ := Nf.insert_spec inv (Nf.look_none_of_get hg) ht
    refine ⟨tb', by simp only [h1, Option.bind_eq_bind, Option.bind_some], h2, _, has_eq h2 ht f, ?_⟩
    rcases h3 with ⟨_, _, h5⟩ | ⟨i, _, _, _, h5, _⟩
    · exact fun _ => full_of inv ht h5
    · rw [h5]; simp [Nf.fresh_self]

theorem holds_some (q : Prop) : Holds (some q) ↔ q :=
  ⟨fun ⟨_, h1, h2⟩ => (Option.some.inj h1) ▸ h2, fun h => ⟨q, rfl, h⟩⟩

theorem keeps_nil {count : Nat} {spec : Option Sent → Option Prop} (h : Holds (spec none)) : Keeps count [] spec := ⟨none, rfl, h⟩

theorem keeps_sent {count : Nat} {spec : Option Sent → Option Prop} {p : Packet} {d : Nat} {b : Bool}
    (h : Holds (spec (some ⟨p, .single d⟩))) : Keeps count [.transmit p d b] spec := ⟨_, rfl, h⟩

theorem sentAcross_self (p : Packet) :
    NfSpec.sentAcross p (some ⟨p, .single (Nf.otherDevice p)⟩) =
      some (NfSpec.sameData p p ∧ Nf.otherDevice p = NfSpec.otherSide p) := rfl

theorem firewall_keeps {size exp ext : Nat} (hext : ext < 2 ^ 16) {tb : Table Flow} (inv : Nf.Inv size exp tb) {p : Packet}
    (ht : p.time < timeMax) :
    ∃ tb' outs, Nf.Firewall.handle ext tb p = some (tb', outs) ∧ Nf.Inv size exp tb' ∧
      Keeps 2 outs (NfSpec.firewall ext (expiringSet exp size p.time tb) (expiringSet exp size p.time tb') p) ∧
      Keeps 2 outs (NfSpec.firewallSmall ext (expiringSet exp size p.time tb).elemsToIndices p) := by
  have hmod : ext % 2 ^ 16 = ext := Nat.mod_eq_of_lt hext
  by_cases h4 : isTcpUdp p
  swap
  · refine ⟨tb, [], ?_, inv, keeps_nil ?_, keeps_nil ?_⟩
    · rcases not_ip h4 with h | ⟨h, h'⟩
      · simp only [Nf.Firewall.handle, h]
      · simp only [Nf.Firewall.handle, h, h']
    · simp [NfSpec.firewall, ipv4_eq, tcpudp_eq, h4, holds_some]
    · simp [NfSpec.firewallSmall, ipv4_eq, tcpudp_eq, h4, holds_some]
  obtain ⟨e1, e2⟩ := is_ip h4
  by_cases hd : p.device = ext
  · have hcode : Nf.Firewall.handle ext tb p = (Nf.Firewall.hasExternal tb p.time (PacketSpec.reverse (flow p))).bind
        fun x => if !x.2 then some (x.1, []) else some (x.1, [.transmit p (Nf.otherDevice p) false]) := by
      simp only [Nf.Firewall.handle, e1, e2, hd, if_true, back_eq]; rfl
    have hspec : ∀ old new tx, NfSpec.firewall ext old new p tx = (old.has (PacketSpec.reverse (flow p))).bind fun known =>
        if known then (new.didRefresh (PacketSpec.reverse (flow p))).bind fun r => (NfSpec.sentAcross p tx).bind fun s =>
          some (r = true ∧ s) else some (tx.isNone = true) := by
      intro old new tx
      simp only [NfSpec.firewall, ipv4_eq, tcpudp_eq, h4, h4.1, if_true, Option.bind_eq_bind, Option.bind_some, hmod, hd,
        flowBack_eq]
    have hsmall : ∀ old tx, NfSpec.firewallSmall ext old p tx = match tx with
        | none => some True
        | some t => t.device.bind fun d => some (old.has (PacketSpec.reverse (flow p)) = true ∧ NfSpec.sameData t.packet p ∧
            d = NfSpec.otherSide p) := by
      intro old tx
      cases tx <;> simp only [NfSpec.firewallSmall, ipv4_eq, tcpudp_eq, h4, h4.1, if_true, Option.bind_eq_bind, Option.bind_some, hmod, hd,
        flowBack_eq]
    have hhas := has_eq inv ht (PacketSpec.reverse (flow p))
    cases hl : Nf.look tb (PacketSpec.reverse (flow p)) with
    | none =>
      rw [hl] at hhas
      have hg := Nf.get_none_of_look inv hl
      refine ⟨tb, [], by simp [hcode, Nf.Firewall.hasExternal, hg], inv, keeps_nil ?_, keeps_nil ?_⟩
      · rw [hspec, hhas]; simp [holds_some]
      · rw [hsmall]; simp [holds_some]
    | some x =>
      obtain ⟨i, v⟩ := x
      rw [hl] at hhas
      obtain ⟨hg, hs⟩ := Nf.look_some inv hl
      have hu := Nf.used_eq inv p.time i
      rw [hs] at hu
      simp only [← Nf.fresh_eq_young] at hu
      cases hf : Expiring.fresh exp p.time v with
      | false =>
        rw [hf] at hu
        simp only [hf] at hhas
        refine ⟨tb, [], by simp [hcode, Nf.Firewall.hasExternal, hg, hu], inv, keeps_nil ?_, keeps_nil ?_⟩
        · rw [hspec, hhas]; simp [holds_some]
        · rw [hsmall]; simp [holds_some]
      | true =>
        rw [hf] at hu
        simp only [hf] at hhas
        obtain ⟨tb', h1, h2, _, _, h3⟩ := Nf.refresh_spec inv hl ht
        refine ⟨tb', [.transmit p (Nf.otherDevice p) false], by simp [hcode, Nf.Firewall.hasExternal, hg, hu, h1], h2, keeps_sent ?_, keeps_sent ?_⟩
        · rw [hspec, hhas]
          simp only [Option.bind_some, if_true]
          rw [didRefresh_of h2 (i := i) (by rw [h3, if_pos rfl]), sentAcross_self]
          exact ⟨_, rfl, rfl, fun _ _ => rfl, rfl⟩
        · rw [hsmall]
          exact ⟨_, rfl, by simp [PyMap.has, show tb.map.values.get _ = some i from hg], fun _ _ => rfl, rfl⟩
  · have hcode : Nf.Firewall.handle ext tb p = (Nf.Firewall.learnInternal tb p.time (flow p)).bind
        fun tb => some (tb, [.transmit p (Nf.otherDevice p) false]) := by
      simp only [Nf.Firewall.handle, e1, e2, hd, if_false, flow_eq]; rfl
    obtain ⟨tb', h1, h2, b, h3, h5⟩ := learnInternal_spec inv ht (flow p)
    refine ⟨tb', _, by rw [hcode, h1]; rfl, h2, keeps_sent ?_, keeps_sent ?_⟩
    · have : NfSpec.firewall ext (expiringSet exp size p.time tb) (expiringSet exp size p.time tb') p
          (some ⟨p, .single (Nf.otherDevice p)⟩) = some ((b = false → (expiringSet exp size p.time tb).full) ∧
            NfSpec.sameData p p ∧ Nf.otherDevice p = NfSpec.otherSide p) := by
        simp only [NfSpec.firewall, ipv4_eq, tcpudp_eq, h4, h4.1, if_true, Option.bind_eq_bind, Option.bind_some, hmod, hd,
          flowOf_eq, if_false, h3, sentAcross_self]
      rw [this]
      exact ⟨_, rfl, h5, fun _ _ => rfl, rfl⟩
    · simp only [NfSpec.firewallSmall, ipv4_eq, tcpudp_eq, h4, h4.1, if_true, Option.bind_eq_bind, Option.bind_some, hmod, hd,
        if_false, holds_some]

/-! ### NAT -/

structure NatInv (size exp : Nat) (tb : Table Flow) : Prop where
  inv : Nf.Inv size exp tb
  bounded : ∀ f x, Nf.look tb f = some x → f.srcIp < 2 ^ 32 ∧ f.srcPort < 65536

theorem nat_inbound_spec (p q : Packet) (f : Flow) (h : NatSpec.Inbound p q f) :
    NfSpec.natInbound f p (some ⟨q, .single (Nf.otherDevice p)⟩) =
      some (dword q 30 = f.srcIp ∧ word q 36 = f.srcPort ∧ Nf.otherDevice p = NfSpec.otherSide p) := by
  have h4 : isTcpUdp q := h.2.2.2.1
  simp only [NfSpec.natInbound, Option.bind_eq_bind, Option.bind_some, ipv4_eq, tcpudp_eq, h4, h4.1, if_true, ip_dst, l4_dst,
    Sent.device]

theorem nat_outbound_spec (c : Nf.NatNf.Config) (size exp index : Nat) (p q : Packet) (port : Nat)
    (h : NatSpec.Outbound (natConfig c size exp) p q port) :
    NfSpec.natOutbound c.externalAddr c.startPort index p (some ⟨q, .single (Nf.otherDevice p)⟩) =
      some (dword q 26 = c.externalAddr % 2 ^ 32 ∧ word q 34 = (c.startPort + index) % 2 ^ 64 % 2 ^ 16 ∧
        Nf.otherDevice p = NfSpec.otherSide p) := by
  have h4 : isTcpUdp q := h.2.2.2.2.1
  simp only [NfSpec.natOutbound, Option.bind_eq_bind, Option.bind_some, ipv4_eq, tcpudp_eq, h4, h4.1, if_true, ip_src, l4_src,
    Sent.device]

theorem nat_keeps {size exp : Nat} {c : Nf.NatNf.Config} (hwan : c.wanDevice < 2 ^ 16) (hea : c.externalAddr < 2 ^ 32)
    (hsp : c.startPort < 2 ^ 16) {tb : Table Flow} (ni : NatInv size exp tb) {p : Packet} (ht : p.time < timeMax) :
    ∃ tb' outs, Nf.NatNf.handle c tb p = some (tb', outs) ∧ NatInv size exp tb' ∧
      Keeps 2 outs (NfSpec.nat c.wanDevice c.externalAddr c.startPort (expiringSet exp size p.time tb)
        (expiringSet exp size p.time tb') p) := by
  have inv := ni.inv
  have hmod : c.wanDevice % 2 ^ 16 = c.wanDevice := Nat.mod_eq_of_lt hwan
  have hsmod : c.startPort % 2 ^ 16 = c.startPort := Nat.mod_eq_of_lt hsp
  by_cases h4 : isTcpUdp p
  swap
  · refine ⟨tb, [], ?_, ni, keeps_nil ?_⟩
    · rcases not_ip h4 with h | ⟨h, h'⟩
      · simp only [Nf.NatNf.handle, h]
      · simp only [Nf.NatNf.handle, h, h']
    · simp [NfSpec.nat, ipv4_eq, tcpudp_eq, h4, holds_some]
  obtain ⟨e1, e2⟩ := is_ip h4
  by_cases hd : p.device = c.wanDevice
  · set i := (65536 + word p 36 - c.startPort) % 65536 with hi
    have hcode : Nf.NatNf.handle c tb p = (Nf.NatNf.getExternal c.startPort tb p.time (word p 36)).bind fun x =>
        match x with
        | (tb, none) => some (tb, [])
        | (tb, some fl) =>
          if fl.dstIp ≠ dword p 26 ∨ fl.dstPort ≠ word p 34 ∨ fl.protocol ≠ byte p 23 then some (tb, [])
          else some (tb, [.transmit { p with data := Nf.NatNf.rewriteInbound p.data 14 34 fl } (Nf.otherDevice p) true]) := by
      simp only [Nf.NatNf.handle, e1, e2, hd, if_true, Nf.ld32_dword, Nf.ld16_word]; rfl
    have hspec : ∀ old new tx, NfSpec.nat c.wanDevice c.externalAddr c.startPort old new p tx =
        (old.getByIndex i).bind fun o => match o with
          | none => some (tx.isNone = true)
          | some fl => if fl.dstIp ≠ dword p 26 ∨ fl.dstPort ≠ word p 34 ∨ fl.protocol ≠ byte p 23 then some (tx.isNone = true)
            else (new.didRefresh fl).bind fun r => (NfSpec.natInbound fl p tx).bind fun s => some (r = true ∧ s) := by
      intro old new tx
      simp only [NfSpec.nat, ipv4_eq, tcpudp_eq, h4, h4.1, if_true, Option.bind_eq_bind, Option.bind_some, hmod, hd, l4_dst,
        hsmod, ip_src, l4_src, ip_protocol, hi]
      rfl
    have hby := getByIndex_eq (cap := size) inv ht i
    have hu := Nf.used_eq inv p.time i
    cases hs : Nf.stamp tb.pool i with
    | none =>
      rw [hs] at hu hby
      refine ⟨tb, [], ?_, ni, keeps_nil ?_⟩
      · rw [hcode]; simp [Nf.NatNf.getExternal, ← hi, hu]
      · rw [hspec, hby]; simp [holds_some]
    | some v =>
      rw [hs] at hu hby
      simp only [← Nf.fresh_eq_young] at hu
      obtain ⟨f, hkf, hlf⟩ := Nf.owner inv hs
      cases hfr : Expiring.fresh exp p.time v with
      | false =>
        rw [hfr] at hu
        simp only [hfr] at hby
        refine ⟨tb, [], ?_, ni, keeps_nil ?_⟩
        · rw [hcode]; simp [Nf.NatNf.getExternal, ← hi, hu]
        · rw [hspec, hby]; simp [holds_some]
      | true =>
        rw [hfr] at hu
        simp only [hfr, if_true, hkf] at hby
        obtain ⟨tb', h1, h2, hk, _, h3⟩ := Nf.refresh_spec inv hlf ht
        have hk' : tb'.keys[i]? = some f := by rw [hk]; exact hkf
        have ni' : NatInv size exp tb' := by
          refine ⟨h2, fun f' x hx => ?_⟩
          rw [h3] at hx
          by_cases he : f' = f
          · subst he; exact ni.bounded f' _ hlf
          · rw [if_neg he] at hx; exact ni.bounded f' x hx
        have hget : Nf.NatNf.getExternal c.startPort tb p.time (word p 36) = some (tb', some f) := by
          simp only [Nf.NatNf.getExternal, ← hi, hu, Option.bind_eq_bind, Option.bind_some, if_true, h1, hk']
        by_cases hpeer : f.dstIp ≠ dword p 26 ∨ f.dstPort ≠ word p 34 ∨ f.protocol ≠ byte p 23
        · refine ⟨tb', [], ?_, ni', keeps_nil ?_⟩
          · rw [hcode, hget]; simp only [Option.bind_some]; rw [if_pos hpeer]
          · rw [hspec, hby]; simp only [Option.bind_some]; rw [if_pos hpeer]; simp [holds_some]
        · have hin := inbound_ok p f h4 (ni.bounded f _ hlf).1 (ni.bounded f _ hlf).2
          refine ⟨tb', [.transmit { p with data := Nf.NatNf.rewriteInbound p.data 14 34 f } (Nf.otherDevice p) true], ?_, ni',
            keeps_sent ?_⟩
          · rw [hcode, hget]; simp only [Option.bind_some]; rw [if_neg hpeer]
          · rw [hspec, hby]; simp only [Option.bind_some]; rw [if_neg hpeer]
            rw [didRefresh_of h2 (i := i) (by rw [h3, if_pos rfl]), nat_inbound_spec p _ f hin]
            exact ⟨_, rfl, rfl, hin.1, hin.2.1, rfl⟩
  · have hcode : Nf.NatNf.handle c tb p = (Nf.NatNf.getInternal c.startPort tb p.time (flow p)).bind fun x =>
        match x with
        | (tb, none) => some (tb, [])
        | (tb, some port) =>
          some (tb, [.transmit { p with data := Nf.NatNf.rewriteOutbound p.data 14 34 c.externalAddr port } (Nf.otherDevice p) true]) := by
      simp only [Nf.NatNf.handle, e1, e2, hd, if_false, flow_eq]; rfl
    have hspec : ∀ old new tx, NfSpec.nat c.wanDevice c.externalAddr c.startPort old new p tx =
        (new.has (flow p)).bind fun k => if k then (new.getIndex (flow p)).bind fun index =>
          NfSpec.natOutbound c.externalAddr c.startPort index p tx else some (old.full ∧ tx.isNone = true) := by
      intro old new tx
      simp only [NfSpec.nat, ipv4_eq, tcpudp_eq, h4, h4.1, if_true, Option.bind_eq_bind, Option.bind_some, hmod, hd, flowOf_eq,
        if_false]
    have hfb : (flow p).srcIp < 2 ^ 32 ∧ (flow p).srcPort < 65536 := ⟨dword_lt p 26, word_lt p 34⟩
    -- once the flow has index `i` in the new table, everything follows
    have fin : ∀ tb' i, Nf.NatNf.getInternal c.startPort tb p.time (flow p) =
          some (tb', some ((c.startPort + i % 65536) % 65536)) → NatInv size exp tb' → Nf.look tb' (flow p) = some (i, p.time) →
        ∃ tb' outs, Nf.NatNf.handle c tb p = some (tb', outs) ∧ NatInv size exp tb' ∧
          Keeps 2 outs (NfSpec.nat c.wanDevice c.externalAddr c.startPort (expiringSet exp size p.time tb)
            (expiringSet exp size p.time tb') p) := by
      intro tb' i h1 ni' hl
      have hout := outbound_ok c size exp ((c.startPort + i % 65536) % 65536) p hea (Nat.mod_lt _ (by omega)) h4
      refine ⟨tb', _, by rw [hcode, h1]; rfl, ni', keeps_sent ?_⟩
      have hh := has_eq ni'.inv ht (flow p)
      rw [hl] at hh
      simp only [Nf.fresh_self] at hh
      have hgi : (expiringSet exp size p.time tb').getIndex (flow p) = some i := (Nf.look_some ni'.inv hl).1
      rw [hspec, hh]
      simp only [Option.bind_some, if_true]
      rw [hgi]
      simp only [Option.bind_some]
      rw [nat_outbound_spec c size exp i p _ _ hout]
      refine ⟨_, rfl, ?_, ?_, rfl⟩
      · rw [hout.1, Nat.mod_eq_of_lt hea]; rfl
      · rw [hout.2.1]; omega
    cases hg : tb.map.get (flow p) with
    | some i =>
      obtain ⟨v, _, hl⟩ := Nf.look_of_get inv hg
      obtain ⟨tb', h1, h2, _, _, h3⟩ := Nf.refresh_spec inv hl ht
      refine fin tb' i (by simp [Nf.NatNf.getInternal, hg, h1]) ⟨h2, fun f' x hx => ?_⟩ (by rw [h3, if_pos rfl])
      rw [h3] at hx
      by_cases he : f' = flow p
      · subst he; exact hfb
      · rw [if_neg he] at hx; exact ni.bounded f' x hx
    | none =>
      obtain ⟨tb', r, h1, h2, h3⟩ := Nf.insert_spec inv (Nf.look_none_of_get hg) ht
      rcases h3 with ⟨rfl, h5, h6⟩ | ⟨i, rfl, _, _, h5, h6⟩
      · refine ⟨tb', [], by rw [hcode]; simp [Nf.NatNf.getInternal, hg, h1], ⟨h2, fun f' x hx => ?_⟩, keeps_nil ?_⟩
        · rw [h5] at hx; exact ni.bounded f' x hx
        · have hh := has_eq h2 ht (flow p)
          rw [h5, Nf.look_none_of_get hg] at hh
          rw [hspec, hh]
          simp only [Option.bind_some, Bool.false_eq_true, if_false]
          exact ⟨_, rfl, full_of inv ht h6, rfl⟩
      · refine fin tb' i (by simp [Nf.NatNf.getInternal, hg, h1]) ⟨h2, fun f' x hx => ?_⟩ h5
        by_cases he : f' = flow p
        · subst he; exact hfb
        · rw [h6 f' he] at hx
          cases hlk : Nf.look tb f' with
          | none => rw [hlk] at hx; cases hx
          | some y => exact ni.bounded f' y hlk

/-! ### Load balancer -/

/-- The backends' map: the items of the backend pool. -/
def backendsMap (s : Balancer) : PyMap Nat Nat :=
  ⟨Nf.stamp s.backendPool, (s.backendPool.timestamps.filter (· ≠ IndexPool.TIME_MAX)).length⟩

/-- The same without those that expired. -/
def liveBackends (exp now : Nat) (s : Balancer) : PyMap Nat Nat :=
  let get := fun b => (Nf.stamp s.backendPool b).filter fun v => decide (now ≤ v + exp)
  ⟨get, ((List.range s.backendPool.size).filter fun b => (get b).isSome).length⟩

theorem stamp_beat {n fcap fexp bexp : Nat} {cht : Cht.Cht} {s : Balancer} {beat : Nat → Option Nat}
    (inv : BalInv n fcap fexp bexp cht s beat) (b : Nat) : Nf.stamp s.backendPool b = beat b := by
  obtain ⟨items, rep, hi⟩ := inv.pool
  rw [← hi b]
  exact (rep.get b).symm

/-- What the balancer leaves of the flow table: a packet is sent only if its flow is known
then, or could not be recorded. -/
theorem backend_flows {n fcap fexp bexp : Nat} {cht : Cht.Cht} {s s' : Balancer} {beat : Nat → Option Nat}
    (inv : BalInv n fcap fexp bexp cht s beat) (hash : Flow → Nat) (f : Flow) {t b : Nat} (ht : t < timeMax)
    (h : Nf.Maglev.getBackend hash s f t = some (s', some b)) :
    ∃ known, (expiringSet fexp fcap t s'.flows).has f = some known ∧
      (known = false → (expiringSet fexp fcap t s.flows).full) := by
  have hpick : ∀ s1 : Balancer, Nf.Inv fcap fexp s1.flows → Nf.look s1.flows f = none →
      Nf.Maglev.pick hash s1 f t = some (s', some b) →
      ∃ known, (expiringSet fexp fcap t s'.flows).has f = some known ∧
        (known = false → ∀ i < fcap, ∃ k v, Nf.look s1.flows k = some (i, v) ∧ IndexPoolSpec.young t fexp v = true) := by
    intro s1 i1 hl hp
    simp only [Nf.Maglev.pick] at hp
    cases hf : Cht.find s1.cht (hash f) s1.backendPool t with
    | none => simp [hf] at hp
    | some r =>
      cases r with
      | none => simp [hf] at hp
      | some b' =>
        obtain ⟨tb', r, h1, h2, h3⟩ := Nf.insert_spec i1 hl ht
        simp [hf, h1] at hp
        obtain ⟨rfl, rfl⟩ := hp
        rcases h3 with ⟨_, h5, h6⟩ | ⟨i, _, _, _, h5, _⟩
        · exact ⟨false, by rw [has_eq h2 ht, h5, hl], fun _ => h6⟩
        · exact ⟨true, by rw [has_eq h2 ht, h5]; simp [Nf.fresh_self], fun h => by cases h⟩
  simp only [Nf.Maglev.getBackend] at h
  cases hg : s.flows.map.get f with
  | none =>
    rw [hg] at h
    obtain ⟨k, h1, h2⟩ := hpick s inv.flows (Nf.look_none_of_get hg) h
    exact ⟨k, h1, fun hk => full_of inv.flows ht (h2 hk)⟩
  | some i =>
    rw [hg] at h
    obtain ⟨v, _, hl⟩ := Nf.look_of_get inv.flows hg
    have hi := (Nf.look_key inv.flows hl).2
    have hb : s.flowBackends[i]? = some 0 := by rw [inv.backends]; simp [hi]
    simp only [hb, used_live inv, Option.bind_eq_bind, Option.bind_some] at h
    cases ha : live bexp t beat 0 with
    | true =>
      obtain ⟨tb', h1, h2, _, _, h3⟩ := Nf.refresh_spec inv.flows hl ht
      simp [ha, Nf.Maglev.knownFlow, h1] at h
      obtain ⟨rfl, _⟩ := h
      exact ⟨true, by rw [has_eq h2 ht, h3, if_pos rfl]; simp [Nf.fresh_self], fun h => by cases h⟩
    | false =>
      obtain ⟨tb', h1, h2, h3⟩ := Nf.drop_spec inv.flows hl
      simp only [ha, Nf.Maglev.knownFlow, h1, Option.bind_eq_bind, Option.bind_some] at h
      obtain ⟨k, h4, h5⟩ := hpick { s with flows := tb' } h2 (by simp [h3]) h
      refine ⟨k, h4, fun hk => ?_⟩
      -- the index of the dropped flow is free, so the flow was recorded
      obtain ⟨k', v', h6, _⟩ := h5 hk i hi
      exfalso
      simp only [h3] at h6
      by_cases he : k' = f
      · rw [if_pos he] at h6; cases h6
      · rw [if_neg he] at h6
        exact he (Nf.look_inj inv.flows h6 hl)

/-- The load balancer keeps its specification with any view of the backends that has the
sender of a heartbeat, and only live ones otherwise. -/
theorem maglev_keeps {n fcap fexp bexp h : Nat} {cht : Cht.Cht} {s : Balancer} {beat : Nat → Option Nat}
    (inv : BalInv n fcap fexp bexp cht s beat) (hcap : n - 1 < h) (hh : h < 40000)
    (hs : ∀ s, 1 ≤ s → s ≤ n - 1 → Nat.Coprime h s) (hc : Cht.alloc h (n - 1) = some cht) (hn : 2 ≤ n) (hash : Flow → Nat)
    {p : Packet} (ht : p.time < timeMax) (hdev : p.device < n) :
    ∃ s' outs, Nf.Maglev.handle hash n s p = some (s', outs) ∧ BalInv n fcap fexp bexp cht s' (next n beat p) ∧
      ∀ bk : PyMap Nat Nat,
        (isTcpUdp p → p.device < n - 1 → bk.get p.device = some p.time) →
        (isClient n p → ∀ b v, b < n - 1 → bk.get b = some v → live bexp p.time beat b = true) →
        Keeps n outs (NfSpec.maglev n (expiringSet fexp fcap p.time s.flows) (expiringSet fexp fcap p.time s'.flows) bk p) := by
  obtain ⟨s', outs, h1, h2, h3, h4⟩ := balancer_step inv hcap hh hs hc hn hash ht
  refine ⟨s', outs, h1, h2, fun bk hbk hlive => ?_⟩
  by_cases hl4 : isTcpUdp p
  swap
  · rw [h3 (fun h => hl4 h.1)]
    refine keeps_nil ?_
    simp [NfSpec.maglev, ipv4_eq, tcpudp_eq, hl4, holds_some]
  by_cases hd : p.device < n - 1
  · rw [h3 (fun h => h.2 hd)]
    refine keeps_nil ?_
    have hne : p.device ≠ n - 1 := by omega
    simp [NfSpec.maglev, ipv4_eq, tcpudp_eq, hl4, hl4.1, hne, hbk hl4 hd, holds_some]
  · have hcl : isClient n p := ⟨hl4, hd⟩
    have he : p.device = n - 1 := by omega
    have hspec : ∀ old new tx, NfSpec.maglev n old new bk p tx =
        match tx with
        | none => some (bk.all fun k _ => k < 0 ∨ k ≥ n - 1)
        | some t => (new.has (flow p)).bind fun known => some ((known = false → old.full) ∧ NfSpec.sameData t.packet p) := by
      intro old new tx
      cases tx <;> simp only [NfSpec.maglev, ipv4_eq, tcpudp_eq, hl4, hl4.1, if_true, Option.bind_eq_bind, Option.bind_some, he,
        flowOf_eq]
    rcases h4 hcl with ⟨rfl, h5⟩ | ⟨b, rfl, _⟩
    · refine keeps_nil ?_
      rw [hspec]
      refine ⟨_, rfl, fun k v hk => ?_⟩
      by_contra hcon
      have hk' : k < n - 1 := by omega
      exact absurd (hlive hcl k v hk' hk) (by rw [h5 k hk']; simp)
    · refine keeps_sent ?_
      rw [hspec]
      obtain ⟨e1, e2⟩ := is_ip hl4
      simp only [Nf.Maglev.handle, e1, e2, hd, if_false, flow_eq, Option.bind_eq_bind] at h1
      cases hg : Nf.Maglev.getBackend hash s (flow p) p.time with
      | none => rw [hg] at h1; cases h1
      | some r =>
        obtain ⟨s1, o⟩ := r
        rw [hg] at h1
        simp only [Option.bind_some] at h1
        cases o with
        | none => simp at h1
        | some b' =>
          simp only [Option.some.injEq, Prod.mk.injEq] at h1
          obtain ⟨rfl, _⟩ := h1
          obtain ⟨k, h6, h7⟩ := backend_flows inv hash (flow p) ht hg
          rw [h6]
          exact ⟨_, rfl, h7, fun _ _ => rfl⟩

/-! ### Bridge -/

/-- The addresses of a bridge. -/
def addresses (s : Nf.Bridge.State) : PyMap Nat Nat := ⟨s.table.map.values.get, s.table.map.values.length⟩

/-! ### Router -/

theorem routeMatches_iff {r : LpmSpec.Route} (h : r.length ≤ 32) (ip : Nat) :
    NfSpec.routeMatches r.length r.dest ip ↔ LpmSpec.matchesIp r ip := by
  have : NfSpec.sub64 32 r.length % 2 ^ 32 = 32 - r.length := by unfold NfSpec.sub64; omega
  rw [NfSpec.routeMatches, this, LpmSpec.matchesIp]

theorem routeMap_some {t : LpmSpec.Table} {k : Nat × Nat} {d : Nat} (h : (NfSpec.routeMap t).get k = some d) :
    ∃ r ∈ t, r.length = k.1 ∧ r.dest = k.2 ∧ r.device = d := by
  simp only [NfSpec.routeMap, Option.map_eq_some_iff] at h
  obtain ⟨r, h1, h2⟩ := h
  have h3 := List.find?_some h1
  simp only [decide_eq_true_eq] at h3
  exact ⟨r, List.mem_of_find?_eq_some h1, h3.1, h3.2, h2⟩

theorem routeMap_has {t : LpmSpec.Table} {r : LpmSpec.Route} (h : r ∈ t) :
    (NfSpec.routeMap t).has (r.length, r.dest) = true := by
  simp only [PyMap.has, NfSpec.routeMap, Option.isSome_map, List.find?_isSome]
  exact ⟨r, h, by simp⟩

/-- Routes as the contract of lpm_set stores them, with no bits set beyond the prefix. -/
structure RouteInv (t : LpmSpec.Table) : Prop where
  len : ∀ r ∈ t, r.length ≤ 32
  canonical : ∀ r ∈ t, r.dest % 2 ^ (32 - r.length) = 0
  distinct : ∀ r ∈ t, ∀ r' ∈ t, r.length = r'.length → r.dest = r'.dest → r.device = r'.device

theorem RouteInv.agree {t : LpmSpec.Table} (h : RouteInv t) {ip : Nat} {r r' : LpmSpec.Route} (h1 : r ∈ t) (h2 : r' ∈ t)
    (m1 : LpmSpec.matchesIp r ip) (m2 : LpmSpec.matchesIp r' ip) (hl : r.length = r'.length) : r.device = r'.device := by
  apply h.distinct r h1 r' h2 hl
  have c1 := h.canonical r h1
  have c2 := h.canonical r' h2
  unfold LpmSpec.matchesIp at m1 m2
  rw [← hl] at c2 m2
  rw [← Nat.div_add_mod r.dest (2 ^ (32 - r.length)), ← Nat.div_add_mod r'.dest (2 ^ (32 - r.length)), c1, c2, m1, m2]

end NfSpecProofs
open NfSpecProofs

/-- Firewall: whatever packets it handled before, the outputs for a packet keep firewall/spec.py, and
also firewall/spec-small.py. -/
theorem C62_firewall (ext size exp : Nat) (hext : ext < 2 ^ 16) (ps : List Packet) (p : Packet)
    (hp : ∀ q ∈ ps, q.time < timeMax) (ht : p.time < timeMax) :
    ∃ tb tb1 outs tb2 out, Nf.Firewall.init exp size = some tb ∧ Nf.Firewall.run ext tb ps = some (tb1, outs) ∧
      Nf.Firewall.handle ext tb1 p = some (tb2, out) ∧
      Keeps 2 out (NfSpec.firewall ext (expiringSet exp size p.time tb1) (expiringSet exp size p.time tb2) p) ∧
      Keeps 2 out (NfSpec.firewallSmall ext (expiringSet exp size p.time tb1).elemsToIndices p) := by
  obtain ⟨tb, h1, h2, _⟩ := Nf.inv_alloc Flow.zero size exp
  have key : ∀ (ps : List Packet) (tb : Table Flow), Nf.Inv size exp tb → (∀ q ∈ ps, q.time < timeMax) →
      ∃ tb1 outs, Nf.Firewall.run ext tb ps = some (tb1, outs) ∧ Nf.Inv size exp tb1 := by
    intro ps
    induction ps with
    | nil => intro tb inv _; exact ⟨tb, [], rfl, inv⟩
    | cons q ps ih =>
      intro tb inv hq
      obtain ⟨tb', o, h3, h4, _⟩ := firewall_keeps hext inv (hq q (by simp))
      obtain ⟨tb1, os, h5, h6⟩ := ih tb' h4 fun x hx => hq x (by simp [hx])
      exact ⟨tb1, o :: os, by simp [Nf.Firewall.run, h3, h5], h6⟩
  obtain ⟨tb1, outs, h3, h4⟩ := key ps tb h2 hp
  obtain ⟨tb2, out, h5, _, h6, h7⟩ := firewall_keeps hext h4 ht
  exact ⟨tb, tb1, outs, tb2, out, h1, h3, h5, h6, h7⟩

/-- Non-vacuity: an unsolicited packet from outside, one from inside, and its answer. -/
example : (∀ q ∈ [samplePacket 1 2 3 4 1 5, samplePacket 2 1 4 3 0 6], q.time < timeMax) ∧
    ((Nf.Firewall.init 100 4).bind fun tb => (Nf.Firewall.run 1 tb [samplePacket 1 2 3 4 1 5, samplePacket 2 1 4 3 0 6,
      samplePacket 1 2 3 4 1 7]).map fun r => r.2.map List.length) = some [0, 1, 1] := by
  exact ⟨by simp [samplePacket, timeMax], by decide⟩

/-- C62: the specification of the firewall is not met by a firewall that lets a packet from outside pass, or drops it, without refreshing
its flow, if the flow was known. -/
theorem C62_firewall_refreshes (ext : Nat) (hext : ext < 2 ^ 16) (old new : NfSpec.ExpiringSet Flow) (p : Packet)
    (tx : Option Sent) (h4 : isTcpUdp p) (hd : p.device = ext) (hk : old.has (PacketSpec.reverse (flow p)) = some true)
    (hs : ∃ met, NfSpec.firewall ext old new p tx = some met ∧ met) :
    ∃ i, new.elemsToIndices.get (PacketSpec.reverse (flow p)) = some i ∧ new.indicesToTimes.get i = some new.time := by
  have hmod : ext % 2 ^ 16 = ext := Nat.mod_eq_of_lt hext
  obtain ⟨met, h, hm⟩ := hs
  simp only [NfSpec.firewall, ipv4_eq, tcpudp_eq, h4, h4.1, if_true, Option.bind_eq_bind, Option.bind_some, hmod, hd,
        flowBack_eq, hk] at h
  cases hr : new.didRefresh (PacketSpec.reverse (flow p)) with
  | none => simp [hr] at h
  | some r =>
    cases ht : NfSpec.sentAcross p tx with
    | none => simp [hr, ht] at h
    | some s =>
      simp only [hr, ht, Option.bind_some, Option.some.injEq] at h
      subst h
      unfold NfSpec.ExpiringSet.didRefresh at hr
      cases hi : new.elemsToIndices.get (PacketSpec.reverse (flow p)) with
      | none => simp [hi] at hr; rw [hr] at hm; simp at hm
      | some i =>
        refine ⟨i, rfl, ?_⟩
        cases hj : new.indicesToTimes.get i with
        | none => simp [hi, hj] at hr
        | some t => simp [hi, hj] at hr; rw [← hr] at hm; simpa using hm.1

/-- A known flow that is refreshed. -/
example : let s : NfSpec.ExpiringSet Flow := ⟨10, 4, 7, ⟨fun _ => some 0, 1⟩, ⟨fun _ => none, 0⟩, ⟨fun _ => some 7, 1⟩⟩
    let p := samplePacket 1 2 3 4 1 7
    isTcpUdp p ∧ s.has (PacketSpec.reverse (flow p)) = some true ∧
      ∃ met, NfSpec.firewall 1 s s p (some ⟨p, .single (Nf.otherDevice p)⟩) = some met ∧ met := by
  have h4 : isTcpUdp (samplePacket 1 2 3 4 1 7) := by decide
  refine ⟨h4, by simp [NfSpec.ExpiringSet.has], (decide (7 = 7) = true ∧ (NfSpec.sameData (samplePacket 1 2 3 4 1 7) (samplePacket 1 2 3 4 1 7) ∧
    Nf.otherDevice (samplePacket 1 2 3 4 1 7) = NfSpec.otherSide (samplePacket 1 2 3 4 1 7))), ?_, by decide, fun _ _ => rfl, by decide⟩
  simp only [NfSpec.firewall, ipv4_eq, tcpudp_eq, h4, h4.1, if_true, Option.bind_eq_bind, Option.bind_some, flowBack_eq]
  rfl

/-- NAT: whatever packets it handled before, the outputs for a packet keep nat/spec.py, for tables of any
size (also when ports are shared, C43). -/
theorem C62_nat (c : Nf.NatNf.Config) (size exp : Nat) (hwan : c.wanDevice < 2 ^ 16) (hea : c.externalAddr < 2 ^ 32)
    (hsp : c.startPort < 2 ^ 16) (ps : List Packet) (p : Packet) (hp : ∀ q ∈ ps, q.time < timeMax) (ht : p.time < timeMax) :
    ∃ tb tb1 outs tb2 out, Nf.NatNf.init exp size = some tb ∧ Nf.NatNf.run c tb ps = some (tb1, outs) ∧
      Nf.NatNf.handle c tb1 p = some (tb2, out) ∧
      Keeps 2 out (NfSpec.nat c.wanDevice c.externalAddr c.startPort (expiringSet exp size p.time tb1)
        (expiringSet exp size p.time tb2) p) := by
  obtain ⟨tb, h1, h2, h2'⟩ := Nf.inv_alloc Flow.zero size exp
  have key : ∀ (ps : List Packet) (tb : Table Flow), NatInv size exp tb → (∀ q ∈ ps, q.time < timeMax) →
      ∃ tb1 outs, Nf.NatNf.run c tb ps = some (tb1, outs) ∧ NatInv size exp tb1 := by
    intro ps
    induction ps with
    | nil => intro tb inv _; exact ⟨tb, [], rfl, inv⟩
    | cons q ps ih =>
      intro tb inv hq
      obtain ⟨tb', o, h3, h4, _⟩ := nat_keeps hwan hea hsp inv (hq q (by simp))
      obtain ⟨tb1, os, h5, h6⟩ := ih tb' h4 fun x hx => hq x (by simp [hx])
      exact ⟨tb1, o :: os, by simp [Nf.NatNf.run, h3, h5], h6⟩
  obtain ⟨tb1, outs, h3, h4⟩ := key ps tb ⟨h2, fun f x h => by rw [h2'] at h; cases h⟩ hp
  obtain ⟨tb2, out, h5, _, h6⟩ := nat_keeps hwan hea hsp h4 ht
  exact ⟨tb, tb1, outs, tb2, out, h1, h3, h5, h6⟩

/-- Non-vacuity: a packet from outside to an unused port, one from inside (which gets port 1000), and its answer. -/
example : ((⟨77, 1, 1000⟩ : Nf.NatNf.Config).wanDevice < 2 ^ 16) ∧
    ((Nf.NatNf.init 100 4).bind fun tb => (Nf.NatNf.run ⟨77, 1, 1000⟩ tb [samplePacket 1 2 3 4 1 5, samplePacket 2 1 4 3 0 6]).map
      fun r => (r.2.map List.length, r.2.map fun o => o.map fun x => match x with | .transmit q _ _ => word q 34 | _ => 0)) =
      some ([0, 1], [[], [1000]]) := by
  exact ⟨by decide, by decide⟩

/-- Load balancer, except for backends that have expired: whatever it handled before, the outputs for a
packet keep maglev/spec.py if `backends` in it has only the backends that are live. -/
theorem C62_maglev_live_partial (n fcap fexp bexp h : Nat) (hn : 2 ≤ n) (hcap : n - 1 < h) (hh : h < 40000)
    (hs : ∀ s, 1 ≤ s → s ≤ n - 1 → Nat.Coprime h s) (hash : Flow → Nat) (ps : List Packet) (p : Packet)
    (hp : ∀ q ∈ ps, q.time < timeMax) (ht : p.time < timeMax) (hd : p.device < n) :
    ∃ s s1 outs s2 out, Nf.Maglev.init n fcap fexp bexp h = some s ∧ Nf.Maglev.run hash n s ps = some (s1, outs) ∧
      Nf.Maglev.handle hash n s1 p = some (s2, out) ∧
      Keeps n out (NfSpec.maglev n (expiringSet fexp fcap p.time s1.flows) (expiringSet fexp fcap p.time s2.flows)
        (liveBackends bexp p.time s2) p) ∧
      -- and maglev/spec.py itself if none has expired
      ((∀ q ∈ ps, p.time ≤ q.time + bexp) →
        Keeps n out (NfSpec.maglev n (expiringSet fexp fcap p.time s1.flows) (expiringSet fexp fcap p.time s2.flows)
          (backendsMap s2) p)) := by
  obtain ⟨cht, hc, _⟩ := Cht.alloc_spec hcap hh (coprime_of_small hcap hs)
  obtain ⟨tb, h1, h2, _⟩ := Nf.inv_alloc Flow.zero fcap fexp
  obtain ⟨q, hq, rep⟩ := IndexPool.alloc_rep (n - 1) bexp
  have hinit : Nf.Maglev.init n fcap fexp bexp h = some ⟨tb, List.replicate fcap 0, q, cht⟩ := by
    unfold Nf.Maglev.init
    rw [if_neg (by omega), if_neg (by omega), if_neg (by omega)]
    simp [Nf.Maglev.alloc, h1, hq, hc]
  have key : ∀ (ps : List Packet) (s : Balancer) (beat : Nat → Option Nat), BalInv n fcap fexp bexp cht s beat →
      (∀ q ∈ ps, q.time < timeMax) →
      ∃ s1 outs beat1, Nf.Maglev.run hash n s ps = some (s1, outs) ∧ BalInv n fcap fexp bexp cht s1 beat1 ∧
        ((∀ b v, beat b = some v → p.time ≤ v + bexp) → (∀ q ∈ ps, p.time ≤ q.time + bexp) →
          ∀ b v, beat1 b = some v → p.time ≤ v + bexp) := by
    intro ps
    induction ps with
    | nil => intro s beat inv _; exact ⟨s, [], beat, rfl, inv, fun h _ => h⟩
    | cons x ps ih =>
      intro s beat inv hx
      obtain ⟨s', o, h3, h4, _⟩ := balancer_step inv hcap hh hs hc hn hash (hx x (by simp))
      obtain ⟨s1, os, beat1, h5, h6, h7⟩ := ih s' _ h4 fun y hy => hx y (by simp [hy])
      refine ⟨s1, o :: os, beat1, by simp [Nf.Maglev.run, h3, h5], h6, fun hb hps => h7 ?_ fun y hy => hps y (by simp [hy])⟩
      intro b v hv
      unfold next at hv
      by_cases hcond : isTcpUdp x ∧ x.device < n - 1
      · rw [if_pos hcond] at hv
        by_cases hbd : b = x.device
        · simp only [hbd, if_true] at hv; cases hv; exact hps x (by simp)
        · simp only [hbd, if_false] at hv; exact hb b v hv
      · rw [if_neg hcond] at hv; exact hb b v hv
  obtain ⟨s1, outs, beat1, h3, h4, h5⟩ := key ps ⟨tb, List.replicate fcap 0, q, cht⟩ (fun _ => none)
    ⟨h2, rfl, ⟨[], rep, fun _ => rfl⟩, rfl⟩ hp
  obtain ⟨s2, out, h6, h7, h8⟩ := maglev_keeps h4 hcap hh hs hc hn hash ht hd
  have hclient : isClient n p → ∀ b, Nf.stamp s2.backendPool b = beat1 b := by
    intro hcl b
    rw [stamp_beat h7, next, if_neg (fun h => hcl.2 h.2)]
  have hbeat : isTcpUdp p → p.device < n - 1 → Nf.stamp s2.backendPool p.device = some p.time := by
    intro hl hdv
    rw [stamp_beat h7, next, if_pos ⟨hl, hdv⟩]; simp
  refine ⟨_, s1, outs, s2, out, hinit, h3, h6, h8 _ ?_ ?_, fun hps => h8 _ ?_ ?_⟩
  · intro hl hdv
    simp [liveBackends, hbeat hl hdv]
  · intro hcl b v _ hv
    simp only [liveBackends, hclient hcl, Option.filter_eq_some_iff] at hv
    simp [live, hv.1, by simpa using hv.2]
  · exact hbeat
  · intro hcl b v _ hv
    simp only [backendsMap, hclient hcl] at hv
    have := h5 (fun _ _ h => by cases h) hps b v hv
    simp [live, hv, this]

/-- Non-vacuity: a client packet before and after a heartbeat. -/
example : (2 ≤ 3 ∧ 3 - 1 < 5 ∧ ∀ s, 1 ≤ s → s ≤ 3 - 1 → Nat.Coprime 5 s) ∧
    (∀ q ∈ [samplePacket 1 2 3 4 2 1, samplePacket 9 9 9 9 1 1], q.time < timeMax ∧ (samplePacket 1 2 3 4 2 2).time ≤ q.time + 100) ∧
    ((Nf.Maglev.init 3 4 100 100 5).bind fun s => (Nf.Maglev.run (fun _ => 1) 3 s
      [samplePacket 1 2 3 4 2 1, samplePacket 9 9 9 9 1 1, samplePacket 1 2 3 4 2 2]).map fun r => r.2.map List.length) =
      some [0, 0, 1] := by
  refine ⟨⟨by decide, by decide, fun s h1 h2 => ?_⟩, by simp [samplePacket, timeMax], by decide⟩
  have : s = 1 ∨ s = 2 := by omega
  rcases this with rfl | rfl <;> decide

/-- False: maglev/spec.py does not hold of the load balancer. After the only backend's heartbeat has
expired a client packet is dropped, although the backend is still in the map. -/
theorem C62_maglev_wrong : ∃ (ps : List Packet) (p : Packet) (s s1 : Balancer) (outs : List (List Out)) (s2 : Balancer) (out : List Out),
    (∀ q ∈ ps, q.time < timeMax ∧ q.device < 3) ∧ p.device < 3 ∧ p.time < timeMax ∧
    Nf.Maglev.init 3 4 100 100 5 = some s ∧ Nf.Maglev.run (fun _ => 1) 3 s ps = some (s1, outs) ∧
    Nf.Maglev.handle (fun _ => 1) 3 s1 p = some (s2, out) ∧
    ¬ Keeps 3 out (NfSpec.maglev 3 (expiringSet 100 4 p.time s1.flows) (expiringSet 100 4 p.time s2.flows) (backendsMap s2) p) := by
  have hs : ∀ s, 1 ≤ s → s ≤ 3 - 1 → Nat.Coprime 5 s := by
    intro s h1 h2
    have : s = 1 ∨ s = 2 := by omega
    rcases this with rfl | rfl <;> decide
  obtain ⟨s, s1, outs, s2, out, h1, h2, h3, _⟩ := C62_maglev_live_partial 3 4 100 100 5 (by omega) (by omega) (by omega) hs
    (fun _ => 1) [samplePacket 9 9 9 9 0 1] (samplePacket 1 2 3 4 2 500) (by simp [samplePacket, timeMax])
    (by simp [samplePacket, timeMax]) (by simp [samplePacket])
  refine ⟨_, _, s, s1, outs, s2, out, by simp [samplePacket, timeMax], by simp [samplePacket], by simp [samplePacket, timeMax], h1, h2, h3, ?_⟩
  have e : ((Nf.Maglev.init 3 4 100 100 5).bind fun s => (Nf.Maglev.run (fun _ => 1) 3 s [samplePacket 9 9 9 9 0 1]).bind fun r =>
      (Nf.Maglev.handle (fun _ => 1) 3 r.1 (samplePacket 1 2 3 4 2 500)).map fun x => (x.2.length, Nf.stamp x.1.backendPool 0)) =
      some (0, some 1) := by decide
  simp only [h1, h2, h3, Option.bind_some, Option.map_some, Option.some.injEq, Prod.mk.injEq, List.length_eq_zero_iff] at e
  obtain ⟨rfl, e2⟩ := e
  rintro ⟨tx, htx, q, hq, hq'⟩
  cases htx
  have hl4 : isTcpUdp (samplePacket 1 2 3 4 2 500) := by decide
  have hdev : (samplePacket 1 2 3 4 2 500).device = 3 - 1 := rfl
  simp only [NfSpec.maglev, ipv4_eq, tcpudp_eq, hl4, hl4.1, if_true, Option.bind_eq_bind, Option.bind_some, hdev, flowOf_eq,
    Option.some.injEq] at hq
  subst hq
  rcases hq' 0 1 e2 with h | h <;> omega

/-- Policer: in every state, the outputs for a packet keep policer/spec.py. -/
theorem C62_policer (c : Nf.Policer.Config) (hw : c.wanDevice < 2 ^ 16) (s s' : Nf.Policer.State) (p : Packet) (out : List Out)
    (h : Nf.Policer.handle c s p = some (s', out)) : Keeps 2 out (NfSpec.policer c.wanDevice p) := by
  have hmod : c.wanDevice % 2 ^ 16 = c.wanDevice := Nat.mod_eq_of_lt hw
  by_cases hip : isIpv4 p
  swap
  · simp [Nf.Policer.handle, Nf.getIpv4Header_eq, hip] at h
    obtain ⟨_, rfl⟩ := h
    exact keeps_nil (by simp [NfSpec.policer, ipv4_eq, hip, holds_some])
  simp only [Nf.Policer.handle, Nf.getIpv4Header_eq, hip, if_true] at h
  by_cases hd : p.device = c.wanDevice
  · rw [if_pos hd] at h
    have hspec : ∀ tx, NfSpec.policer c.wanDevice p tx = some True := by
      intro tx; simp only [NfSpec.policer, ipv4_eq, hip, hmod, hd, if_true, Option.bind_eq_bind, Option.bind_some]
    cases hp : Nf.Policer.police c s p.time p.length (Nf.ld32 p.data (14 + 16)) with
    | none => simp [hp] at h
    | some r =>
      obtain ⟨s1, b⟩ := r
      cases b <;> simp [hp] at h <;> obtain ⟨_, rfl⟩ := h
      · exact keeps_nil (by rw [hspec]; exact ⟨_, rfl, trivial⟩)
      · exact keeps_sent (by rw [hspec]; exact ⟨_, rfl, trivial⟩)
  · rw [if_neg hd] at h
    simp only [Option.some.injEq, Prod.mk.injEq] at h
    obtain ⟨_, rfl⟩ := h
    refine keeps_sent ?_
    simp only [NfSpec.policer, ipv4_eq, hip, hmod, hd, if_true, if_false, Option.bind_eq_bind, Option.bind_some]
    exact ⟨_, rfl, rfl⟩

/-- Non-vacuity: packets from the LAN, and from the WAN within and beyond the burst. -/
example : ((Nf.Policer.init ⟨1, 10, 100⟩ 4).bind fun s => (Nf.Policer.run ⟨1, 10, 100⟩ s
    [samplePacket 1 2 3 4 0 5, samplePacket 2 1 4 3 1 6, samplePacket 2 1 4 3 1 6]).map fun r => r.2.map List.length) =
    some [1, 1, 0] := by decide

/-- No-op: the outputs for a packet keep nop/spec.py. -/
theorem C62_nop (n wan lan : Nat) (hn : n ≤ 2 ^ 16) (h : Nf.Nop.init n wan lan = some (wan, lan)) (p : Packet) :
    Keeps n (Nf.Nop.handle wan lan p) (NfSpec.nop wan lan p) := by
  unfold Nf.Nop.init at h
  split at h
  · rename_i hc
    have h1 : wan % 2 ^ 16 = wan := Nat.mod_eq_of_lt (by omega)
    have h2 : lan % 2 ^ 16 = lan := Nat.mod_eq_of_lt (by omega)
    refine keeps_sent ?_
    simp only [NfSpec.nop, Sent.device, Option.bind_eq_bind, Option.bind_some, h1, h2]
    by_cases hd : p.device = wan <;> simp [hd, holds_some]
  · cases h

example : Nf.Nop.init 3 2 0 = some (2, 0) ∧ (3 : Nat) ≤ 2 ^ 16 := by decide

/-- Bridge: in every state, the outputs for a frame keep bridge/spec.py. -/
theorem C62_bridge (n : Nat) (s s' : Nf.Bridge.State) (p : Packet) (out : List Out)
    (h : Nf.Bridge.handle s p = some (s', out)) :
    Keeps n out (NfSpec.bridge n s.stp.updateTime s.stp.lastUpdate s'.stp.lastUpdate (addresses s') p) := by
  have hdst : Nf.Bridge.ldMac p.data 0 = BridgeSpec.dst p := ldMac_addr p 0
  have hget : (NfSpec.ether p).get "dst" = some (BridgeSpec.dst p) := ether_dst p
  have hstp : BridgeSpec.stpAddr = 0x000000C28001 := by decide
  have hspec : ∀ u db tx, NfSpec.bridge n s.stp.updateTime s.stp.lastUpdate u db p tx =
      if p.time > (s.stp.lastUpdate + s.stp.updateTime) % 2 ^ 64 then some (u = p.time)
      else if BridgeSpec.dst p = BridgeSpec.stpAddr then some True
      else match tx with
        | none => some (db.has (BridgeSpec.dst p) = true)
        | some t => some (¬ t.devices.has p.device ∧ (db.has (BridgeSpec.dst p) = false → t.devices.length = n - 1)) := by
    intro u db tx
    cases tx <;> simp only [NfSpec.bridge, hget, Option.bind_eq_bind, Option.bind_some, hstp]
  simp only [Nf.Bridge.handle, Nf.Bridge.stpHandle] at h
  by_cases h1 : p.time > (s.stp.lastUpdate + s.stp.updateTime) % 2 ^ 64
  · rw [if_pos h1] at h
    simp only [Option.bind_eq_bind, Option.bind_some, Option.some.injEq, Prod.mk.injEq] at h
    obtain ⟨rfl, rfl⟩ := h
    refine ⟨_, rfl, ?_⟩
    rw [hspec, if_pos h1]
    exact ⟨_, rfl, rfl⟩
  rw [if_neg h1] at h
  by_cases h2 : BridgeSpec.dst p = BridgeSpec.stpAddr
  · rw [(isStpDst_iff p).2 h2] at h
    simp only [Bool.not_true, Bool.false_eq_true, if_false] at h
    have htx : ∃ tx, transmitted n out = some tx := by
      cases hb : Nf.Bridge.stpBpdu s.stp p with
      | none => simp [hb] at h
      | some r =>
        simp [hb] at h
        obtain ⟨_, rfl⟩ := h
        have hu : ∀ st st' o, Nf.Bridge.stpUpdated st p = some (st', o) → ∃ tx, transmitted n o = some tx := by
          intro st st' o ho
          unfold Nf.Bridge.stpUpdated at ho
          split at ho
          · cases ho; exact ⟨_, rfl⟩
          · cases ho
        obtain ⟨st', o⟩ := r
        unfold Nf.Bridge.stpBpdu at hb
        simp only at hb
        split at hb
        · split at hb
          · cases hb; exact ⟨_, rfl⟩
          · cases hb
        · split at hb
          · exact hu _ _ _ hb
          · split at hb
            · exact hu _ _ _ hb
            · split at hb
              · exact hu _ _ _ hb
              · cases hb; exact ⟨_, rfl⟩
    obtain ⟨tx, htx⟩ := htx
    refine ⟨tx, htx, ?_⟩
    rw [hspec, if_neg h1, if_pos h2]
    exact ⟨_, rfl, trivial⟩
  · have h3 : Nf.Bridge.isStpDst p.data = false := by
      cases hb : Nf.Bridge.isStpDst p.data with
      | false => rfl
      | true => exact absurd ((isStpDst_iff p).1 hb) h2
    rw [h3] at h
    simp only [Bool.not_false, if_true, Option.bind_eq_bind, Option.bind_some, Nf.Bridge.handleData] at h
    cases hl : Nf.Bridge.learnSource s p with
    | none => simp [hl] at h
    | some r =>
      obtain ⟨tb, dv⟩ := r
      simp only [hl, Option.bind_some] at h
      cases hf : Nf.Bridge.forward s.stp tb dv p with
      | none => simp [hf] at h
      | some o =>
        simp only [hf, Option.bind_some, Option.some.injEq, Prod.mk.injEq] at h
        obtain ⟨rfl, rfl⟩ := h
        simp only [Nf.Bridge.forward, hdst] at hf
        have hhas : ∀ tx, NfSpec.bridge n s.stp.updateTime s.stp.lastUpdate s.stp.lastUpdate
            (addresses { s with table := tb, devices := dv }) p tx =
            match tx with
            | none => some ((tb.map.get (BridgeSpec.dst p)).isSome = true)
            | some t => some (¬ t.devices.has p.device ∧ ((tb.map.get (BridgeSpec.dst p)).isSome = false → t.devices.length = n - 1)) := by
          intro tx
          rw [hspec, if_neg h1, if_neg h2]
          rfl
        cases hg : tb.map.get (BridgeSpec.dst p) with
        | none =>
          rw [hg] at hf
          simp only [Option.some.injEq] at hf
          subst hf
          refine ⟨_, rfl, ?_⟩
          rw [hhas]
          exact ⟨_, rfl, fun hh => hh rfl, fun _ => rfl⟩
        | some i =>
          rw [hg] at hf
          simp only [Option.bind_eq_bind] at hf
          cases hdv : dv[i]? with
          | none => simp [hdv] at hf
          | some d =>
            simp only [hdv, Option.bind_some] at hf
            by_cases hne : d ≠ p.device
            · rw [if_pos hne] at hf
              cases hf
              refine keeps_sent ?_
              rw [hhas, hg]
              exact ⟨_, rfl, fun hh => hne (Eq.symm hh), fun hh => by cases hh⟩
            · rw [if_neg hne] at hf
              cases hf
              refine keeps_nil ?_
              rw [hhas, hg]
              exact ⟨_, rfl, rfl⟩

/-- Non-vacuity: periodic message, unknown destination, learned address, the same device. -/
example : ((Nf.Bridge.init 3 7 10 4 1000).bind fun s =>
      (Nf.Bridge.run s [frame 4 2 0 1, frame 2 4 1 2, frame 4 6 1 3, frame 8 4 2 2000]).map
        fun r => (r.1.stp.lastUpdate, r.2.map List.length)) = some (2000, [1, 1, 0, 1]) := by decide

/-- The specification counts blocked ports as reached: it holds of a flood (of 4 devices) that reaches
only 2 others. -/
theorem C62_bridge_counts_blocked : ∃ (s s' : Nf.Bridge.State) (p : Packet) (out : List Out),
    ((Nf.Bridge.init 4 7 10 4 1000).bind fun s => Nf.Bridge.run s [bpduFrame 5 0 1, bpduFrame 9 2 2]).map Prod.fst = some s ∧
    Nf.Bridge.handle s p = some (s', out) ∧ (addresses s').has (BridgeSpec.dst p) = false ∧
    out.flatMap (sentTo 4) = [1, 3] ∧
    Keeps 4 out (NfSpec.bridge 4 s.stp.updateTime s.stp.lastUpdate s'.stp.lastUpdate (addresses s') p) := by
  have e : ((((Nf.Bridge.init 4 7 10 4 1000).bind fun s => Nf.Bridge.run s [bpduFrame 5 0 1, bpduFrame 9 2 2]).map Prod.fst).bind
      fun s => (Nf.Bridge.handle s (frame 4 2 0 3)).map fun r =>
        ((addresses r.1).has (BridgeSpec.dst (frame 4 2 0 3)), r.2.flatMap (sentTo 4))) = some (false, [1, 3]) := by decide
  cases hr : ((Nf.Bridge.init 4 7 10 4 1000).bind fun s => Nf.Bridge.run s [bpduFrame 5 0 1, bpduFrame 9 2 2]).map Prod.fst with
  | none => rw [hr] at e; cases e
  | some s =>
    rw [hr] at e
    cases hh : Nf.Bridge.handle s (frame 4 2 0 3) with
    | none => simp [hh] at e
    | some r =>
      obtain ⟨s', out⟩ := r
      simp only [Option.bind_some, hh, Option.map_some, Option.some.injEq, Prod.mk.injEq] at e
      exact ⟨s, s', _, out, rfl, hh, e.1, e.2, C62_bridge 4 s s' _ out hh⟩

/-- What the router does with a packet that is not a command, for any table whose matching routes of
equal length agree. -/
theorem router_keeps (search : LpmSpec.Table → Nat → Option Nat) (hs : LpmSpec.IsSearch search) (n : Nat)
    {t : LpmSpec.Table} (hlen : ∀ r ∈ t, r.length ≤ 32) (p : Packet) (hd : p.device ≠ n - 1)
    (hag : ∀ r ∈ t, ∀ r' ∈ t, LpmSpec.matchesIp r (dword p 30) → LpmSpec.matchesIp r' (dword p 30) → r.length = r'.length →
      r.device = r'.device) :
    Keeps n (Nf.Router.route search t p) (NfSpec.router n (NfSpec.routeMap t) p) := by
  have hx := C48_route_exact search hs t p
  by_cases hip : isIpv4 p
  swap
  · rw [if_neg (fun h => hip h.1.1)] at hx
    rw [hx]
    exact keeps_nil (by simp [NfSpec.router, hd, ipv4_eq, hip, holds_some])
  have hspec : ∀ tx, NfSpec.router n (NfSpec.routeMap t) p tx =
      if byte p 14 / 16 ≠ 4 ∨ byte p 14 % 16 < 5 ∨ routerLength p / 4 < byte p 14 % 16 then some (tx.isNone = true)
      else if byte p 22 = 0 then some (tx.isNone = true)
      else match tx with
        | none => some (NfSpec.routed (NfSpec.routeMap t) (dword p 30) none)
        | some s => NfSpec.forwarded (NfSpec.routeMap t) (dword p 30) s := by
    intro tx
    simp only [NfSpec.router, hd, if_false, ipv4_eq, hip, if_true, Option.bind_eq_bind, Option.bind_some, ip_checksum,
      ip_version, ip_ihl, ip_total, ip_ttl, ip_dst]
    simp
    rfl
  by_cases hA : byte p 14 / 16 ≠ 4 ∨ byte p 14 % 16 < 5 ∨ routerLength p / 4 < byte p 14 % 16
  · rw [if_neg (by rintro ⟨⟨_, h1, h2, h3, _⟩, _⟩; omega)] at hx
    rw [hx]
    exact keeps_nil (by rw [hspec, if_pos hA]; simp [holds_some])
  by_cases hT : byte p 22 = 0
  · rw [if_neg (by rintro ⟨⟨_, _, _, _, h1⟩, _⟩; exact h1 hT)] at hx
    rw [hx]
    exact keeps_nil (by rw [hspec, if_neg hA, if_pos hT]; simp [holds_some])
  by_cases hM : ∃ r ∈ t, LpmSpec.matchesIp r (dword p 30)
  · rw [if_pos ⟨⟨hip, by omega, by omega, by omega, hT⟩, hM⟩] at hx
    obtain ⟨r, ⟨hr, hm, hbest⟩, ho⟩ := hx
    rw [ho]
    refine keeps_sent ?_
    rw [hspec, if_neg hA, if_neg hT]
    have hpos : byte p 22 > 0 := Nat.pos_of_ne_zero hT
    have hf : NfSpec.forwarded (NfSpec.routeMap t) (dword p 30) ⟨p, .single r.device⟩ =
        some (byte p 22 > 0 ∧ NfSpec.routed (NfSpec.routeMap t) (dword p 30) (some r.device)) := by
      simp only [NfSpec.forwarded, ipv4_eq, hip, if_true, Option.bind_eq_bind, Option.bind_some, ip_ttl, Sent.device]
    simp only
    rw [hf]
    refine ⟨_, rfl, hpos, (r.length, r.dest), routeMap_has hr, (routeMatches_iff (hlen r hr) _).2 hm, fun k v hk => ?_⟩
    obtain ⟨r', h1, h2, h3, h4⟩ := routeMap_some hk
    by_cases hm' : LpmSpec.matchesIp r' (dword p 30)
    · right
      have hle := hbest r' h1 hm'
      rcases Nat.lt_or_eq_of_le hle with hlt | heq
      · left; rw [← h2]; exact hlt
      · right; rw [← h4]; exact hag r' h1 r hr hm' hm heq
    · left
      rw [← h2, ← h3, routeMatches_iff (hlen r' h1)]
      exact hm'
  · rw [if_neg (fun h => hM h.2)] at hx
    rw [hx]
    refine keeps_nil ?_
    rw [hspec, if_neg hA, if_neg hT]
    refine ⟨_, rfl, fun k v hk => ?_⟩
    obtain ⟨r', h1, h2, h3, _⟩ := routeMap_some hk
    rw [← h2, ← h3, routeMatches_iff (hlen r' h1)]
    exact fun h => hM ⟨r', h1, h⟩

/-- The commands of the router's management device that store routes have no bits set beyond the prefix. -/
def CanonicalCommands (n : Nat) (ps : List Packet) : Prop :=
  ∀ q ∈ ps, q.device = n - 1 → Nf.Router.ld64 q.data 4 ≤ 32 → Nf.ld32 q.data 0 % 2 ^ (32 - Nf.Router.ld64 q.data 4) = 0

/-- Router, for commands without bits beyond the prefix: whatever packets it handled before without
breaking the contract of lpm_set (C48), the outputs for a packet keep router/spec.py. -/
theorem C62_router_partial (search : LpmSpec.Table → Nat → Option Nat) (hs : LpmSpec.IsSearch search) (n cap : Nat)
    (ps : List Packet) (hps : CanonicalCommands n ps) (t t' : LpmSpec.Table) (outs : List (List Out)) (p : Packet) (out : List Out)
    (hr : Nf.Router.run search n cap [] ps = some (t, outs)) (h : Nf.Router.handle search n cap t p = some (t', out)) :
    Keeps n out (NfSpec.router n (NfSpec.routeMap t') p) := by
  have key : ∀ (ps : List Packet) (t0 : LpmSpec.Table) (outs : List (List Out)), RouteInv t0 → CanonicalCommands n ps →
      Nf.Router.run search n cap t0 ps = some (t, outs) → RouteInv t := by
    intro ps
    induction ps with
    | nil => intro t0 outs inv _ h; cases h; exact inv
    | cons q ps ih =>
      intro t0 outs inv hq h
      simp only [Nf.Router.run, Option.bind_eq_bind] at h
      cases hh : Nf.Router.handle search n cap t0 q with
      | none => simp [hh] at h
      | some r =>
        obtain ⟨t1, o⟩ := r
        simp only [hh, Option.bind_some] at h
        cases hrun : Nf.Router.run search n cap t1 ps with
        | none => simp [hrun] at h
        | some r2 =>
          obtain ⟨t2, os⟩ := r2
          simp only [hrun, Option.bind_some, Option.some.injEq, Prod.mk.injEq] at h
          obtain ⟨rfl, _⟩ := h
          refine ih t1 os ?_ (fun x hx => hq x (by simp [hx])) hrun
          by_cases hd : q.device = n - 1
          swap
          · rw [Nf.Router.handle, if_neg hd] at hh
            cases hh; exact inv
          rw [Nf.Router.handle, if_pos hd] at hh
          simp only [Nf.Router.manage] at hh
          by_cases hw : Nf.Router.ld64 q.data 4 > 32
          · rw [if_pos hw] at hh; cases hh; exact inv
          rw [if_neg hw] at hh
          by_cases hpre : LpmSpec.setPre t0 (Nf.ld32 q.data 0) (Nf.Router.ld64 q.data 4)
          swap
          · rw [if_neg hpre] at hh; cases hh
          rw [if_pos hpre] at hh
          simp only [Option.map_some, Option.some.injEq, Prod.mk.injEq] at hh
          obtain ⟨rfl, _⟩ := hh
          unfold LpmSpec.set
          by_cases hc : t0.length < cap
          swap
          · rw [if_neg hc]; exact inv
          rw [if_pos hc]
          refine ⟨?_, ?_, ?_⟩
          · intro r hr
            rcases List.mem_cons.1 hr with rfl | h1
            · exact hpre.1
            · exact inv.len r h1
          · intro r hr
            rcases List.mem_cons.1 hr with rfl | h1
            · exact hq q (by simp) hd hpre.1
            · exact inv.canonical r h1
          · intro r hr r' hr' e1 e2
            rcases List.mem_cons.1 hr with rfl | h1 <;> rcases List.mem_cons.1 hr' with rfl | h1'
            · rfl
            · exact absurd ⟨e2.symm, e1.symm⟩ (hpre.2 r' h1')
            · exact absurd ⟨e2, e1⟩ (hpre.2 r h1)
            · exact inv.distinct r h1 r' h1' e1 e2
  have inv := key ps [] outs ⟨by simp, by simp, by simp⟩ hps hr
  by_cases hd : p.device = n - 1
  · rw [Nf.Router.handle, if_pos hd] at h
    simp only [Option.map_eq_some_iff, Prod.mk.injEq] at h
    obtain ⟨_, _, rfl, rfl⟩ := h
    exact keeps_nil (by rw [NfSpec.router, if_pos hd]; exact ⟨_, rfl, trivial⟩)
  · rw [Nf.Router.handle, if_neg hd] at h
    simp only [Option.some.injEq, Prod.mk.injEq] at h
    obtain ⟨rfl, rfl⟩ := h
    exact router_keeps search hs n inv.len p hd fun r h1 r' h2 m1 m2 hl => inv.agree h1 h2 m1 m2 hl

/-- Non-vacuity: two default-free routes and a packet that goes to the longer one. -/
example : CanonicalCommands 3 [managePacket 0 0 1 3, managePacket 0 8 0 3] ∧
    ((Nf.Router.run searchRef 3 4 [] [managePacket 0 0 1 3, managePacket 0 8 0 3, routerPacket 0 20 0 0]).map fun r => r.2.map fun o =>
      o.map fun x => match x with | .transmit _ d _ => d | _ => 9) = some [[], [], [1]] := by
  constructor
  · intro q hq _ _
    rcases List.mem_cons.1 hq with rfl | hq
    · decide
    · rcases List.mem_cons.1 hq with rfl | hq
      · decide
      · cases hq
  · decide

/-- False: router/spec.py does not hold of the router. Two commands with different bits beyond the prefix
(here of length 0) are both stored, and then whichever route lpm_search picks, the other one matches, is
as long and has another device. -/
theorem C62_router_wrong (search : LpmSpec.Table → Nat → Option Nat) (hs : LpmSpec.IsSearch search) :
    ∃ (ps : List Packet) (p : Packet) (t : LpmSpec.Table) (outs : List (List Out)) (out : List Out),
      (∀ q ∈ ps, q.device < 3) ∧ p.device < 3 ∧ Nf.Router.run search 3 4 [] ps = some (t, outs) ∧
      Nf.Router.handle search 3 4 t p = some (t, out) ∧ ¬ Keeps 3 out (NfSpec.router 3 (NfSpec.routeMap t) p) := by
  refine ⟨[managePacket 1 0 0 3, managePacket 2 0 1 3], routerPacket 0 20 0 0, [⟨2, 0, 1⟩, ⟨1, 0, 0⟩], [[], []], _,
    by simp [managePacket], by simp [routerPacket], ?_, by rw [Nf.Router.handle, if_neg (by decide)], ?_⟩
  · rfl
  · have hx := C48_route_exact search hs [⟨2, 0, 1⟩, ⟨1, 0, 0⟩] (routerPacket 0 20 0 0)
    rw [if_pos ⟨by decide, ⟨2, 0, 1⟩, by simp, by decide⟩] at hx
    obtain ⟨r, ⟨hr, _⟩, ho⟩ := hx
    rw [ho]
    rintro ⟨tx, htx, q, hq, hq'⟩
    cases htx
    have hip : isIpv4 (routerPacket 0 20 0 0) := by decide
    have hd : (routerPacket 0 20 0 0).device ≠ 3 - 1 := by decide
    have hf : NfSpec.forwarded (NfSpec.routeMap [⟨2, 0, 1⟩, ⟨1, 0, 0⟩]) (dword (routerPacket 0 20 0 0) 30)
        ⟨routerPacket 0 20 0 0, .single r.device⟩ =
        some (byte (routerPacket 0 20 0 0) 22 > 0 ∧
          NfSpec.routed (NfSpec.routeMap [⟨2, 0, 1⟩, ⟨1, 0, 0⟩]) (dword (routerPacket 0 20 0 0) 30) (some r.device)) := by
      simp only [NfSpec.forwarded, ipv4_eq, hip, if_true, Option.bind_eq_bind, Option.bind_some, ip_ttl, Sent.device]
    have hc : ¬ (word (routerPacket 0 20 0 0) 24 ≠ word (routerPacket 0 20 0 0) 24 ∨ byte (routerPacket 0 20 0 0) 14 / 16 ≠ 4 ∨
        byte (routerPacket 0 20 0 0) 14 % 16 < 5 ∨ word (routerPacket 0 20 0 0) 16 / 4 < byte (routerPacket 0 20 0 0) 14 % 16) := by
      decide
    have ht : ¬ byte (routerPacket 0 20 0 0) 22 = 0 := by decide
    simp only [NfSpec.router, if_neg hd, ipv4_eq, hip, if_true, Option.bind_eq_bind, Option.bind_some, ip_checksum,
      ip_version, ip_ihl, ip_total, ip_ttl, ip_dst, if_neg hc, if_neg ht, hf, Option.some.injEq] at hq
    subst hq
    obtain ⟨_, x, hxh, _, hall⟩ := hq'
    have hx0 : ∀ k, (NfSpec.routeMap [⟨2, 0, 1⟩, ⟨1, 0, 0⟩]).get k = none ∨ k.1 = 0 := by
      intro k
      cases hk : (NfSpec.routeMap [⟨2, 0, 1⟩, ⟨1, 0, 0⟩]).get k with
      | none => exact .inl rfl
      | some d =>
        obtain ⟨r', h1, h2, _⟩ := routeMap_some hk
        right
        rw [← h2]
        rcases List.mem_cons.1 h1 with rfl | h1
        · rfl
        · rcases List.mem_cons.1 h1 with rfl | h1
          · rfl
          · cases h1
    have hx1 : x.1 = 0 := by
      rcases hx0 x with h | h
      · rw [PyMap.has, h] at hxh; cases hxh
      · exact h
    have e1 : (1 : Nat) = r.device := by
      rcases hall (0, 2) 1 (by decide) with h | h | h
      · exact absurd ((routeMatches_iff (r := ⟨2, 0, 1⟩) (by decide) _).2 (by decide)) h
      · simp only [hx1] at h; omega
      · exact h
    have e2 : (0 : Nat) = r.device := by
      rcases hall (0, 1) 0 (by decide) with h | h | h
      · exact absurd ((routeMatches_iff (r := ⟨1, 0, 0⟩) (by decide) _).2 (by decide)) h
      · simp only [hx1] at h; omega
      · exact h
    omega

end Verif.Props
