/- Property C43: NAT translation is consistent and injective. -/
import Verif.Nf.NatProofs
import Verif.Nf.ExpiringProofs
import Verif.Spec.Nat
import Verif.Props.Firewall
import Mathlib.Data.Fintype.Pigeonhole

set_option autoImplicit false

namespace Verif.Props
open Verif.Nf (Packet Flow Table Out)
open Verif.PacketSpec (isTcpUdp flow dword word byte)
open Verif.IndexPoolSpec (timeMax)
open Verif.NatSpec (Live Outbound Inbound FromPeer)

/-- The implementation's configuration as the specification's. -/
def natConfig (c : Nf.NatNf.Config) (size exp : Nat) : NatSpec.Config := ⟨c.externalAddr, c.wanDevice, size, exp⟩

structure NatRel (size exp : Nat) (c : Nf.NatNf.Config) (now : Nat) (tb : Table Flow) (s : NatSpec.State) : Prop where
  rel : Nf.Rel size exp now tb s.flows
  ports : ∀ f i v, Nf.look tb f = some (i, v) → Expiring.fresh exp now v = true → s.port f = (c.startPort + i) % 65536
  bounded : ∀ f x, Nf.look tb f = some x → f.srcIp < 2 ^ 32 ∧ f.srcPort < 65536

theorem word_lt (p : Packet) (i : Nat) : word p i < 65536 := by
  have h1 : (p.data i).toNat < 256 := UInt8.toNat_lt _
  have h2 : (p.data (i + 1)).toNat < 256 := UInt8.toNat_lt _
  simp only [word, byte]; omega

theorem dword_lt (p : Packet) (i : Nat) : dword p i < 2 ^ 32 := by
  have h1 : (p.data i).toNat < 256 := UInt8.toNat_lt _
  have h2 : (p.data (i + 1)).toNat < 256 := UInt8.toNat_lt _
  have h3 : (p.data (i + 2)).toNat < 256 := UInt8.toNat_lt _
  have h4 : (p.data (i + 3)).toNat < 256 := UInt8.toNat_lt _
  simp only [dword, byte]; omega

theorem live_iff {size exp now : Nat} {tb : Table Flow} {s : GMap Flow Nat} (r : Nf.Rel size exp now tb s) (f : Flow) :
    Expiring.mem exp now s f = true ↔ ∃ i v, Nf.look tb f = some (i, v) ∧ Expiring.fresh exp now v = true := by
  rw [Nf.mem_eq r, Option.isSome_iff_exists]
  constructor
  · rintro ⟨v, hv⟩
    obtain ⟨i, h1, h2⟩ := Nf.liveLook_some.1 hv
    exact ⟨i, v, h1, h2⟩
  · rintro ⟨i, v, h1, h2⟩
    exact ⟨v, Nf.liveLook_some.2 ⟨i, h1, h2⟩⟩

theorem outbound_ok (c : Nf.NatNf.Config) (size exp port : Nat) (p : Packet) (hea : c.externalAddr < 2 ^ 32)
    (hport : port < 65536) (h4 : isTcpUdp p) :
    Outbound (natConfig c size exp) p { p with data := Nf.NatNf.rewriteOutbound p.data 14 34 c.externalAddr port } port := by
  have ho : ∀ x, (x < 26 ∨ 30 ≤ x) → x < 34 ∨ x = 36 ∨ x = 37 →
      Nf.NatNf.rewriteOutbound p.data 14 34 c.externalAddr port x = p.data x := by
    intro x h1 h2
    apply Nf.rewriteOutbound_other
    · omega
    · omega
    · unfold Nf.l4Checksum; split <;> omega
  have hb : ∀ x, (x < 26 ∨ 30 ≤ x) → x < 34 ∨ x = 36 ∨ x = 37 →
      byte { p with data := Nf.NatNf.rewriteOutbound p.data 14 34 c.externalAddr port } x = byte p x := by
    intro x h1 h2; simp only [byte]; rw [ho x h1 h2]
  refine ⟨?_, ?_, ?_, ?_, ?_, hb 23 (by omega) (by omega), rfl, rfl, rfl⟩
  · rw [← Nf.ld32_dword]; exact Nf.rewriteOutbound_addr p.data 14 c.externalAddr port hea
  · rw [← Nf.ld16_word]; exact Nf.rewriteOutbound_port p.data 14 c.externalAddr port hport
  · simp only [dword]; rw [hb 30, hb (30 + 1), hb (30 + 2), hb (30 + 3)] <;> omega
  · simp only [word]; rw [hb 36, hb (36 + 1)] <;> omega
  · simp only [isTcpUdp, PacketSpec.isIpv4]; rw [hb 12, hb 13, hb 23] <;> first | omega | exact h4

theorem inbound_ok (p : Packet) (f : Flow) (h4 : isTcpUdp p) (hb1 : f.srcIp < 2 ^ 32) (hb2 : f.srcPort < 65536) :
    Inbound p { p with data := Nf.NatNf.rewriteInbound p.data 14 34 f } f := by
  have ho : ∀ x, (x ≠ 26 ∧ x ≠ 27) → (x < 30 ∨ x = 34 ∨ x = 35) →
      Nf.NatNf.rewriteInbound p.data 14 34 f x = p.data x := by
    intro x h1 h2
    apply Nf.rewriteInbound_other
    · omega
    · omega
    · omega
    · unfold Nf.l4Checksum; split <;> omega
  have hb : ∀ x, (x ≠ 26 ∧ x ≠ 27) → (x < 30 ∨ x = 34 ∨ x = 35) →
      byte { p with data := Nf.NatNf.rewriteInbound p.data 14 34 f } x = byte p x := by
    intro x h1 h2; simp only [byte]; rw [ho x h1 h2]
  refine ⟨?_, ?_, ?_, ?_, hb 23 (by omega) (by omega), rfl, rfl, rfl⟩
  · rw [← Nf.ld32_dword]; exact Nf.rewriteInbound_addr p.data 14 f hb1
  · rw [← Nf.ld16_word]; exact Nf.rewriteInbound_port p.data 14 f hb2
  · simp only [word]; rw [hb 34, hb (34 + 1)] <;> omega
  · simp only [isTcpUdp, PacketSpec.isIpv4]; rw [hb 12, hb 13, hb 23] <;> first | omega | exact h4

theorem nat_step {size exp now : Nat} {c : Nf.NatNf.Config} {tb : Table Flow} {s : NatSpec.State}
    (hea : c.externalAddr < 2 ^ 32) (hsp : c.startPort < 65536) (hsize : size ≤ 65536)
    (r : NatRel size exp c now tb s) {p : Packet} (hm : now ≤ p.time) (ht : p.time < timeMax) (hd : p.device < 2) :
    ∃ tb' o s', Nf.NatNf.handle c tb p = some (tb', o) ∧ NatSpec.Step (natConfig c size exp) s p o s' ∧
      NatRel size exp c p.time tb' s' := by
  have r : NatRel size exp c p.time tb s :=
    ⟨r.rel.later hm, fun f i v h1 h2 => r.ports f i v h1 (Nf.fresh_anti hm h2), r.bounded⟩
  by_cases hip : PacketSpec.isIpv4 p
  swap
  · have hn : ¬ isTcpUdp p := fun h => hip h.1
    exact ⟨tb, [], s, by simp [Nf.NatNf.handle, Nf.getIpv4Header_eq, hip], .other hn, r⟩
  by_cases hl4 : isTcpUdp p
  swap
  · exact ⟨tb, [], s, by simp [Nf.NatNf.handle, Nf.getIpv4Header_eq, hip, Nf.getTcpudpHeader_eq p hip, hl4], .other hl4, r⟩
  by_cases hw : p.device = c.wanDevice
  · -- from the WAN
    simp only [Nf.NatNf.handle, Nf.getIpv4Header_eq, hip, Nf.getTcpudpHeader_eq p hip, hl4, hw, if_true,
      Nf.ld32_dword, Nf.ld16_word]
    set i := (65536 + word p 36 - c.startPort) % 65536 with hi
    have hwl := word_lt p 36
    have hu := Nf.used_eq r.rel.inv p.time i
    have hport : ∀ j, j < size → (c.startPort + j) % 65536 = word p 36 → j = i := by intro j h1 h2; omega
    have hnone : ∀ (_ : ∀ f v, Nf.look tb f = some (i, v) → Expiring.fresh exp p.time v = false),
        ∀ f, Live (natConfig c size exp) s p.time f → s.port f ≠ word p 36 := by
      intro hno f hf he
      obtain ⟨j, v, h1, h2⟩ := (live_iff r.rel f).1 hf
      have h3 := r.ports f j v h1 h2
      have hj := (Nf.look_key r.rel.inv h1).2
      have : j = i := hport j hj (by rw [← h3, he])
      subst this
      rw [hno f v h1] at h2; cases h2
    cases hs : Nf.stamp tb.pool i with
    | none =>
      rw [hs] at hu
      refine ⟨tb, [], s, ?_, .unknown hl4 hw (hnone ?_), r⟩
      · simp [Nf.NatNf.getExternal, ← hi, hu]
      · intro f v h
        have := (Nf.look_some r.rel.inv h).2
        rw [hs] at this; cases this
    | some v =>
      rw [hs] at hu
      simp only at hu
      rw [← Nf.fresh_eq_young] at hu
      obtain ⟨f, hkf, hlf⟩ := Nf.owner r.rel.inv hs
      cases hfr : Expiring.fresh exp p.time v with
      | false =>
        rw [hfr] at hu
        refine ⟨tb, [], s, ?_, .unknown hl4 hw (hnone ?_), r⟩
        · simp [Nf.NatNf.getExternal, ← hi, hu]
        · intro f' v' h
          have := (Nf.look_some r.rel.inv h).2
          rw [hs] at this; cases this; exact hfr
      | true =>
        rw [hfr] at hu
        have hlive : Live (natConfig c size exp) s p.time f := (live_iff r.rel f).2 ⟨i, v, hlf, hfr⟩
        have hil := (Nf.look_key r.rel.inv hlf).2
        have hpf : s.port f = word p 36 := by rw [r.ports f i v hlf hfr]; omega
        obtain ⟨tb', h1, h2, h3⟩ := Nf.refresh_learn r.rel ht (Nf.look_some r.rel.inv hlf).1
        have hk' : tb'.keys[i]? = some f := (Nf.look_key h2.inv (by rw [h3, if_pos rfl])).1
        rw [Expiring.learn, if_pos (.inl hlive)] at h2
        have rel' : NatRel size exp c p.time tb' ⟨Expiring.touch exp p.time s.flows f, s.port⟩ := by
          refine ⟨h2, ?_, ?_⟩
          · intro f' j v' ha hb
            rw [h3] at ha
            by_cases he : f' = f
            · subst he
              simp only [↓reduceIte, Option.some.injEq, Prod.mk.injEq] at ha
              rw [← ha.1]; exact r.ports f' i v hlf hfr
            · rw [if_neg he] at ha
              exact r.ports f' j v' ha hb
          · intro f' x ha
            rw [h3] at ha
            by_cases he : f' = f
            · subst he; exact r.bounded f' _ hlf
            · rw [if_neg he] at ha; exact r.bounded f' _ ha
        by_cases hpeer : FromPeer p f
        · refine ⟨tb', [.transmit { p with data := Nf.NatNf.rewriteInbound p.data 14 34 f } (1 - p.device) true],
            ⟨Expiring.touch exp p.time s.flows f, s.port⟩, ?_,
            .deliver _ f hl4 hw hlive hpf hpeer (inbound_ok p f hl4 (r.bounded f _ hlf).1 (r.bounded f _ hlf).2), rel'⟩
          have hneg : ¬ (f.dstIp ≠ dword p (14 + 12) ∨ f.dstPort ≠ word p 34 ∨ f.protocol ≠ (p.data (14 + 9)).toNat) := by
            rw [not_or, not_or, not_not, not_not, not_not]; exact hpeer
          simp only [Nf.NatNf.getExternal, show (34 : Nat) + 2 = 36 from rfl, ← hi, hu, Option.bind_eq_bind, Option.bind_some,
            ↓reduceIte, h1, hk']
          rw [if_neg hneg, other_device hd]
          simp only [hw]
        · refine ⟨tb', [], ⟨Expiring.touch exp p.time s.flows f, s.port⟩, ?_, .spoof f hl4 hw hlive hpf hpeer, rel'⟩
          have hpos : (f.dstIp ≠ dword p (14 + 12) ∨ f.dstPort ≠ word p 34 ∨ f.protocol ≠ (p.data (14 + 9)).toNat) := by
            by_contra hc
            rw [not_or, not_or, not_not, not_not, not_not] at hc
            exact hpeer hc
          simp only [Nf.NatNf.getExternal, show (34 : Nat) + 2 = 36 from rfl, ← hi, hu, Option.bind_eq_bind, Option.bind_some,
            ↓reduceIte, h1, hk']
          rw [if_pos hpos]
  · -- from inside
    have hflow : (⟨Nf.ld32 p.data (14 + 12), Nf.ld32 p.data (14 + 16), Nf.ld16 p.data 34, Nf.ld16 p.data (34 + 2),
        (p.data (14 + 9)).toNat⟩ : Flow) = flow p := by
      simp only [Nf.ld32_dword, Nf.ld16_word, flow, PacketSpec.byte]
    simp only [Nf.NatNf.handle, Nf.getIpv4Header_eq, hip, Nf.getTcpudpHeader_eq p hip, hl4, hw, if_true, if_false, hflow]
    have hfb : (flow p).srcIp < 2 ^ 32 ∧ (flow p).srcPort < 65536 := ⟨dword_lt p 26, word_lt p 34⟩
    cases hg : tb.map.get (flow p) with
    | some i =>
      obtain ⟨v, hs, hl⟩ := Nf.look_of_get r.rel.inv hg
      have hil := (Nf.look_key r.rel.inv hl).2
      obtain ⟨tb', h1, h2, h3⟩ := Nf.refresh_learn r.rel ht hg
      have hpm : (c.startPort + i % 65536) % 65536 = (c.startPort + i) % 65536 := by omega
      have hcode : Nf.NatNf.getInternal c.startPort tb p.time (flow p) = some (tb', some ((c.startPort + i) % 65536)) := by
        simp only [Nf.NatNf.getInternal, hg, h1, Option.bind_eq_bind, Option.bind_some, hpm]
      have hout := outbound_ok c size exp ((c.startPort + i) % 65536) p hea (by omega) hl4
      have bounded' : ∀ f x, Nf.look tb' f = some x → f.srcIp < 2 ^ 32 ∧ f.srcPort < 65536 := by
        intro f x ha
        rw [h3] at ha
        by_cases he : f = flow p
        · subst he; exact hfb
        · rw [if_neg he] at ha; exact r.bounded f _ ha
      by_cases hfr : Expiring.fresh exp p.time v = true
      · have hlive : Live (natConfig c size exp) s p.time (flow p) := (live_iff r.rel _).2 ⟨i, v, hl, hfr⟩
        rw [Expiring.learn, if_pos (.inl hlive)] at h2
        refine ⟨tb', _, ⟨Expiring.touch exp p.time s.flows (flow p), s.port⟩, ?_,
          .known { p with data := Nf.NatNf.rewriteOutbound p.data 14 34 c.externalAddr ((c.startPort + i) % 65536) } hl4 hw hlive ?_,
          h2, ?_, bounded'⟩
        · simp only [hcode, Option.bind_eq_bind, Option.bind_some, other_device hd]
        · rw [r.ports _ i v hl hfr]; exact hout
        · intro f j v' ha hb
          rw [h3] at ha
          by_cases he : f = flow p
          · subst he
            simp only [↓reduceIte, Option.some.injEq, Prod.mk.injEq] at ha
            rw [← ha.1]; exact r.ports _ i v hl hfr
          · rw [if_neg he] at ha
            exact r.ports f j v' ha hb
      · have hnl : ¬ Live (natConfig c size exp) s p.time (flow p) := by
          intro hc
          obtain ⟨j, v', ha, hb⟩ := (live_iff r.rel _).1 hc
          rw [hl] at ha; cases ha; exact hfr hb
        have hroom : (Expiring.live exp p.time s.flows).length < size := by
          refine Nf.room_of_some r.rel hil (fun k' v' h => ?_)
          have := Nf.look_inj r.rel.inv h hl
          subst this
          rw [hl] at h; cases h
          simpa using hfr
        rw [Expiring.learn, if_pos (.inr hroom)] at h2
        refine ⟨tb', _, _, ?_, .new _ ((c.startPort + i) % 65536) hl4 hw hnl hroom ?_ hout, h2, ?_, bounded'⟩
        · simp only [hcode, Option.bind_eq_bind, Option.bind_some, other_device hd]
        · intro f hf
          obtain ⟨j, v', ha, hb⟩ := (live_iff r.rel _).1 hf
          rw [r.ports f j v' ha hb]
          have hjl := (Nf.look_key r.rel.inv ha).2
          intro he
          have : j = i := by omega
          subst this
          have := Nf.look_inj r.rel.inv ha hl
          subst this
          exact hnl hf
        · intro f j v' ha hb
          rw [h3] at ha
          by_cases he : f = flow p
          · subst he
            simp only [↓reduceIte, Option.some.injEq, Prod.mk.injEq] at ha ⊢
            rw [← ha.1]
          · rw [if_neg he] at ha
            simp only [he, ↓reduceIte]
            exact r.ports f j v' ha hb
    | none =>
      obtain ⟨tb', o, h1, h2, h3, h4, h5, h6, h7⟩ := Nf.insert_learn r.rel ht hg
      have hnl : ¬ Live (natConfig c size exp) s p.time (flow p) := by
        intro hc
        obtain ⟨j, v', ha, hb⟩ := (live_iff r.rel _).1 hc
        rw [Nf.look_none_of_get hg] at ha; cases ha
      have hmf : ¬ Expiring.mem exp p.time s.flows (flow p) = true := hnl
      cases o with
      | none =>
        have hfull : ¬ (Expiring.live exp p.time s.flows).length < size := by
          intro hc; simp [hc] at h3
        rw [Expiring.learn, if_neg (by rw [not_or]; exact ⟨hmf, hfull⟩)] at h2
        have hnk : Nf.look tb' (flow p) = none := by
          cases hlk : Nf.look tb' (flow p) with
          | none => rfl
          | some x =>
            exfalso
            have hins := Nf.insert_spec r.rel.inv (Nf.look_none_of_get hg) ht
            obtain ⟨tb2, o2, e1, _, hcase⟩ := hins
            rw [h1] at e1; cases e1
            rcases hcase with ⟨_, hsame, _⟩ | ⟨i, hbad, _⟩
            · rw [hsame, Nf.look_none_of_get hg] at hlk; cases hlk
            · cases hbad
        refine ⟨tb', [], ⟨Expiring.live exp p.time s.flows, s.port⟩, ?_, .full hl4 hw hnl (Nat.le_of_not_lt hfull), h2, ?_, ?_⟩
        · simp [Nf.NatNf.getInternal, hg, h1]
        · intro f j v ha hb
          have hne : f ≠ flow p := by rintro rfl; rw [hnk] at ha; cases ha
          exact r.ports f j v (h6 f j v hne ha) hb
        · intro f x ha
          have hne : f ≠ flow p := by rintro rfl; rw [hnk] at ha; cases ha
          obtain ⟨j, v⟩ := x
          exact r.bounded f _ (h6 f j v hne ha)
      | some i =>
        obtain ⟨h8, hil, h9⟩ := h4 i rfl
        have hroom : (Expiring.live exp p.time s.flows).length < size := by
          simp only [Option.isSome_some] at h3
          have := (of_decide_eq_true h3.symm)
          rcases this with h | h
          · exact absurd h hmf
          · exact h
        rw [Expiring.learn, if_pos (.inr hroom)] at h2
        have hpm : (c.startPort + i % 65536) % 65536 = (c.startPort + i) % 65536 := by omega
        refine ⟨tb', _, _, ?_, .new _ ((c.startPort + i) % 65536) hl4 hw hnl hroom ?_
          (outbound_ok c size exp _ p hea (by omega) hl4), h2, ?_, ?_⟩
        · simp only [Nf.NatNf.getInternal, hg, h1, Option.bind_eq_bind, Option.bind_some, other_device hd, hpm]
        · intro f hf
          obtain ⟨j, v', ha, hb⟩ := (live_iff r.rel _).1 hf
          rw [r.ports f j v' ha hb]
          have hjl := (Nf.look_key r.rel.inv ha).2
          intro he
          have : j = i := by omega
          subst this
          rw [h9 f v' ha] at hb; cases hb
        · intro f j v' ha hb
          by_cases he : f = flow p
          · subst he
            rw [h8] at ha
            simp only [Option.some.injEq, Prod.mk.injEq] at ha
            simp only [↓reduceIte, ha.1]
          · simp only [he, ↓reduceIte]
            exact r.ports f j v' (h6 f j v' he ha) hb
        · intro f x ha
          by_cases he : f = flow p
          · subst he; exact hfb
          · obtain ⟨j, v⟩ := x
            exact r.bounded f _ (h6 f j v he ha)

theorem nat_run {size exp : Nat} {c : Nf.NatNf.Config}
    (hea : c.externalAddr < 2 ^ 32) (hsp : c.startPort < 65536) (hsize : size ≤ 65536) :
    ∀ (ps : List Packet) {now : Nat} {tb : Table Flow} {s : NatSpec.State}, NatRel size exp c now tb s →
      MonoFrom now ps → (∀ p ∈ ps, p.time < timeMax ∧ p.device < 2) →
      ∃ tb' outs s', Nf.NatNf.run c tb ps = some (tb', outs) ∧ NatSpec.Run (natConfig c size exp) s ps outs s' := by
  intro ps
  induction ps with
  | nil => intro now tb s _ _ _; exact ⟨tb, [], s, rfl, .nil s⟩
  | cons p ps ih =>
    intro now tb s r hm hp
    obtain ⟨tb1, o, s1, h1, h2, h3⟩ := nat_step hea hsp hsize r hm.1 (hp p (by simp)).1 (hp p (by simp)).2
    obtain ⟨tb2, os, s2, h4, h5⟩ := ih h3 hm.2 (fun q hq => hp q (by simp [hq]))
    exact ⟨tb2, o :: os, s2, by simp [Nf.NatNf.run, h1, h4], .cons h2 h5⟩

/-- C43 for at most 65536 flows: every run of the NAT on packets with non-decreasing
times is a run of the specification. Missing from the full claim: larger tables, for
which it is false (`C43_port_shared_when_table_exceeds_ports`). -/
theorem C43_nat_refines_spec_partial (size exp : Nat) (c : Nf.NatNf.Config) (ps : List Packet)
    (hea : c.externalAddr < 2 ^ 32) (hsp : c.startPort < 65536) (hsize : size ≤ 65536)
    (hm : MonoFrom 0 ps) (hp : ∀ p ∈ ps, p.time < timeMax ∧ p.device < 2) (port0 : Flow → Nat) :
    ∃ tb tb' outs s', Nf.NatNf.init exp size = some tb ∧ Nf.NatNf.run c tb ps = some (tb', outs) ∧
      NatSpec.Run (natConfig c size exp) ⟨[], port0⟩ ps outs s' := by
  obtain ⟨tb, h1, h2, h3⟩ := Nf.inv_alloc Flow.zero size exp
  obtain ⟨tb0, h1', hr⟩ := Nf.rel_alloc size exp Flow.zero
  rw [h1] at h1'; cases h1'
  have r : NatRel size exp c 0 tb ⟨[], port0⟩ :=
    ⟨hr, (fun f i v h _ => by rw [h3] at h; cases h), (fun f x h => by rw [h3] at h; cases h)⟩
  obtain ⟨tb', outs, s', h4, h5⟩ := nat_run hea hsp hsize ps r hm hp
  exact ⟨tb, tb', outs, s', h1, h4, h5⟩

/-- Live flows have pairwise different ports. -/
def DistinctPorts (c : NatSpec.Config) (s : NatSpec.State) (now : Nat) : Prop :=
  ∀ f f', Live c s now f → Live c s now f' → s.port f = s.port f' → f = f'

theorem mem_touch (exp now now' : Nat) (_hn : now ≤ now') (s : GMap Flow Nat) (hd : s.Distinct) (f f' : Flow)
    (h : Expiring.mem exp now' (Expiring.touch exp now s f) f' = true) : f' = f ∨ Expiring.mem exp now s f' = true := by
  by_cases he : f = f'
  · exact .inl he.symm
  right
  have hd1 : GMap.Distinct (Expiring.live exp now s) := Nf.distinct_filter hd _
  simp only [Expiring.mem, Expiring.touch] at h ⊢
  rw [Nf.get_live (GMap.distinct_set hd1 _ _), GMap.get_set, if_neg he] at h
  rw [Option.isSome_iff_exists] at h ⊢
  obtain ⟨v, hv⟩ := h
  exact ⟨v, (Option.filter_eq_some_iff.1 hv).1⟩

theorem mem_live (exp now now' : Nat) (s : GMap Flow Nat) (hd : s.Distinct) (f : Flow)
    (h : Expiring.mem exp now' (Expiring.live exp now s) f = true) : Expiring.mem exp now s f = true := by
  have hd1 : GMap.Distinct (Expiring.live exp now s) := Nf.distinct_filter hd _
  simp only [Expiring.mem] at h ⊢
  rw [Nf.get_live hd1] at h
  rw [Option.isSome_iff_exists] at h ⊢
  obtain ⟨v, hv⟩ := h
  exact ⟨v, (Option.filter_eq_some_iff.1 hv).1⟩

theorem mem_earlier (exp now now' : Nat) (hn : now ≤ now') (s : GMap Flow Nat) (hd : s.Distinct) (f : Flow)
    (h : Expiring.mem exp now' s f = true) : Expiring.mem exp now s f = true := by
  simp only [Expiring.mem] at h ⊢
  rw [Nf.get_live hd, Option.isSome_iff_exists] at h ⊢
  obtain ⟨v, hv⟩ := h
  obtain ⟨h1, h2⟩ := Option.filter_eq_some_iff.1 hv
  exact ⟨v, Option.filter_eq_some_iff.2 ⟨h1, Nf.fresh_anti hn h2⟩⟩

/-- One specification step keeps ports distinct and does not change the port of a
flow that is live. -/
theorem C43_spec_step_keeps_ports (c : NatSpec.Config) (s s' : NatSpec.State) (p : Packet) (o : List Out)
    (hd : s.flows.Distinct) (h : NatSpec.Step c s p o s') (hdist : DistinctPorts c s p.time) :
    s'.flows.Distinct ∧ (∀ now', p.time ≤ now' → DistinctPorts c s' now') ∧
      (∀ f, Live c s p.time f → s'.port f = s.port f) := by
  have hdl : GMap.Distinct (Expiring.live c.exp p.time s.flows) := Nf.distinct_filter hd _
  have hdt : ∀ f, GMap.Distinct (Expiring.touch c.exp p.time s.flows f) := fun f => GMap.distinct_set hdl _ _
  have hsame : DistinctPorts c s p.time → ∀ now', p.time ≤ now' → DistinctPorts c s now' := by
    intro hD now' hn f f' h1 h2 h3
    exact hD f f' (mem_earlier _ _ _ hn _ hd _ h1) (mem_earlier _ _ _ hn _ hd _ h2) h3
  have htouch : ∀ f, Live c s p.time f → ∀ now', p.time ≤ now' →
      DistinctPorts c ⟨Expiring.touch c.exp p.time s.flows f, s.port⟩ now' := by
    intro f hf now' hn a b ha hb hab
    have ha' : Live c s p.time a := by
      rcases mem_touch _ _ _ hn _ hd _ _ ha with rfl | h
      · exact hf
      · exact h
    have hb' : Live c s p.time b := by
      rcases mem_touch _ _ _ hn _ hd _ _ hb with rfl | h
      · exact hf
      · exact h
    exact hdist a b ha' hb' hab
  cases h with
  | other _ => exact ⟨hd, hsame hdist, fun _ _ => rfl⟩
  | known q _ _ hl _ => exact ⟨hdt _, htouch _ hl, fun _ _ => rfl⟩
  | new q port _ _ hnl _ hport _ =>
    refine ⟨hdt _, ?_, ?_⟩
    · intro now' hn a b ha hb hab
      simp only at hab
      rcases mem_touch _ _ _ hn _ hd _ _ ha with rfl | ha'
      · rcases mem_touch _ _ _ hn _ hd _ _ hb with rfl | hb'
        · rfl
        · by_cases he : b = flow p
          · exact he.symm
          · rw [if_pos rfl, if_neg he] at hab
            exact absurd hab.symm (hport b hb')
      · by_cases he : a = flow p
        · exact absurd (show Live c s p.time (flow p) from he ▸ ha') hnl
        · rcases mem_touch _ _ _ hn _ hd _ _ hb with rfl | hb'
          · rw [if_pos rfl, if_neg he] at hab
            exact absurd hab (hport a ha')
          · by_cases he' : b = flow p
            · exact absurd (show Live c s p.time (flow p) from he' ▸ hb') hnl
            · rw [if_neg he, if_neg he'] at hab
              exact hdist a b ha' hb' hab
    · intro f hf
      have : f ≠ flow p := fun he => hnl (he ▸ hf)
      simp only [this, ↓reduceIte]
  | full _ _ _ _ =>
    refine ⟨hdl, ?_, fun _ _ => rfl⟩
    intro now' hn a b ha hb hab
    exact hdist a b (mem_live _ _ _ _ hd _ ha) (mem_live _ _ _ _ hd _ hb) hab
  | deliver q f _ _ hl _ _ _ => exact ⟨hdt _, htouch _ hl, fun _ _ => rfl⟩
  | spoof f _ _ hl _ _ => exact ⟨hdt _, htouch _ hl, fun _ _ => rfl⟩
  | unknown _ _ _ => exact ⟨hd, hsame hdist, fun _ _ => rfl⟩

/-- In any specification run from the empty state, live flows have different ports
after every prefix. -/
theorem C43_spec_run_distinct_ports (c : NatSpec.Config) (port0 : Flow → Nat) (ps : List Packet) (outs : List (List Out))
    (s : NatSpec.State) (hm : MonoFrom 0 ps) (h : NatSpec.Run c ⟨[], port0⟩ ps outs s) (now : Nat)
    (hn : ∀ p ∈ ps, p.time ≤ now) : DistinctPorts c s now := by
  have key : ∀ (ps : List Packet) (outs : List (List Out)) (s0 s : NatSpec.State) (t0 : Nat), s0.flows.Distinct →
      (∀ t, t0 ≤ t → DistinctPorts c s0 t) → MonoFrom t0 ps → NatSpec.Run c s0 ps outs s → t0 ≤ now →
      (∀ p ∈ ps, p.time ≤ now) → DistinctPorts c s now := by
    intro ps
    induction ps with
    | nil => intro outs s0 s t0 hd hD _ hr ht _; cases hr; exact hD now ht
    | cons p ps ih =>
      intro outs s0 s t0 hd hD hm hr ht hn
      cases hr with
      | cons hstep hrest =>
        obtain ⟨h1, h2, _⟩ := C43_spec_step_keeps_ports c _ _ p _ hd hstep (hD p.time hm.1)
        exact ih _ _ _ p.time h1 h2 hm.2 hrest (hn p (by simp)) (fun q hq => hn q (by simp [hq]))
  refine key ps outs _ s 0 GMap.distinct_nil ?_ hm h (by omega) hn
  intro t _ f f' hf; simp [Live, Expiring.mem, Expiring.live, GMap.get] at hf

/-- Non-vacuity: two inside flows, a reply to the first one's port, a spoofed reply. -/
example : (∀ p ∈ [samplePacket 1 2 3 4 0 5, samplePacket 1 2 5 4 0 6, samplePacket 2 9 4 100 1 9, samplePacket 7 9 4 100 1 9],
      p.time < timeMax ∧ p.device < 2) ∧
    MonoFrom 0 [samplePacket 1 2 3 4 0 5, samplePacket 1 2 5 4 0 6, samplePacket 2 9 4 100 1 9, samplePacket 7 9 4 100 1 9] ∧
    ((Nf.NatNf.init 10 2).bind fun tb => Nf.NatNf.run ⟨9, 1, 100⟩ tb
      [samplePacket 1 2 3 4 0 5, samplePacket 1 2 5 4 0 6, samplePacket 2 9 4 100 1 9, samplePacket 7 9 4 100 1 9]).map
      (fun r => r.2.map List.length) = some [1, 1, 1, 0] := by
  refine ⟨?_, ?_, by decide⟩
  · simp [samplePacket, timeMax]
  · simp [MonoFrom, samplePacket]

/-- A UDP packet from inside, at time 0; different `n < 2 ^ 24` give different source
addresses. -/
def manyPacket (n : Nat) : Packet where
  data := fun i => if i = 12 then 8 else if i = 23 then 17 else if i = 26 then UInt8.ofNat n
    else if i = 27 then UInt8.ofNat (n / 256) else if i = 28 then UInt8.ofNat (n / 65536) else 0
  length := 60
  time := 0
  device := 0

theorem manyPacket_flow (n m : Nat) (hn : n < 2 ^ 24) (hm : m < 2 ^ 24) (h : flow (manyPacket n) = flow (manyPacket m)) :
    n = m := by
  have : dword (manyPacket n) 26 = dword (manyPacket m) 26 := congrArg Flow.srcIp h
  simp [dword, byte, manyPacket] at this
  omega

theorem manyPacket_l4 (n : Nat) : isTcpUdp (manyPacket n) := by
  simp [isTcpUdp, PacketSpec.isIpv4, byte, manyPacket]

/-- As long as there is room, packets from inside are sent. -/
theorem nat_sends {size exp now : Nat} {c : Nf.NatNf.Config} {tb : Table Flow} {s : GMap Flow Nat}
    (r : Nf.Rel size exp now tb s) {p : Packet} (hm : now ≤ p.time) (ht : p.time < timeMax) (hw : p.device ≠ c.wanDevice)
    (hl4 : isTcpUdp p) (hroom : (Expiring.live exp p.time s).length < size) :
    ∃ tb' q d, Nf.NatNf.handle c tb p = some (tb', [.transmit q d true]) ∧
      Nf.Rel size exp p.time tb' (Expiring.touch exp p.time s (flow p)) := by
  have r := r.later hm
  have hip := hl4.1
  have hflow : (⟨Nf.ld32 p.data (14 + 12), Nf.ld32 p.data (14 + 16), Nf.ld16 p.data 34, Nf.ld16 p.data (34 + 2),
      (p.data (14 + 9)).toNat⟩ : Flow) = flow p := by
    simp only [Nf.ld32_dword, Nf.ld16_word, flow, PacketSpec.byte]
  simp only [Nf.NatNf.handle, Nf.getIpv4Header_eq, hip, Nf.getTcpudpHeader_eq p hip, hl4, hw, if_true, if_false, hflow]
  have hc : Expiring.mem exp p.time s (flow p) = true ∨ (Expiring.live exp p.time s).length < size := .inr hroom
  cases hg : tb.map.get (flow p) with
  | some i =>
    obtain ⟨tb', h1, h2, _⟩ := Nf.refresh_learn r ht hg
    rw [Expiring.learn, if_pos hc] at h2
    exact ⟨tb', _, _, by simp only [Nf.NatNf.getInternal, hg, h1, Option.bind_eq_bind, Option.bind_some]; rfl, h2⟩
  | none =>
    obtain ⟨tb', o, h1, h2, h3, _⟩ := Nf.insert_learn r ht hg
    rw [Expiring.learn, if_pos hc] at h2
    cases o with
    | none => simp [hc] at h3
    | some i =>
      exact ⟨tb', _, _, by simp only [Nf.NatNf.getInternal, hg, h1, Option.bind_eq_bind, Option.bind_some]; rfl, h2⟩

theorem live_length_le (exp now : Nat) (s : GMap Flow Nat) : (Expiring.live exp now s).length ≤ s.length :=
  List.length_filter_le _ _

theorem touch_length_le (exp now : Nat) (s : GMap Flow Nat) (f : Flow) :
    (Expiring.touch exp now s f).length ≤ s.length + 1 := by
  have h1 := live_length_le exp now s
  have h2 : ∀ (m : GMap Flow Nat) (v : Nat), (GMap.set m f v).length ≤ m.length + 1 := by
    intro m v
    induction m with
    | nil => simp [GMap.set]
    | cons e m ih =>
      simp only [GMap.set]
      split
      · simp only [List.length_cons]; omega
      · simp only [List.length_cons] at ih ⊢; omega
  have := h2 (Expiring.live exp now s) now
  simp only [Expiring.touch]; omega

theorem nat_sends_many {size exp : Nat} {c : Nf.NatNf.Config} (hw : c.wanDevice = 1) :
    ∀ (ns : List Nat) (tb : Table Flow) (s : GMap Flow Nat), Nf.Rel size exp 0 tb s → s.length + ns.length ≤ size →
      ∃ tb' outs, Nf.NatNf.run c tb (ns.map manyPacket) = some (tb', outs) ∧ outs.length = ns.length ∧
        ∀ o ∈ outs, ∃ q d, o = [.transmit q d true] := by
  intro ns
  induction ns with
  | nil => intro tb s _ _; exact ⟨tb, [], rfl, rfl, by simp⟩
  | cons n ns ih =>
    intro tb s r hl
    simp only [List.length_cons] at hl
    have hroom : (Expiring.live exp (manyPacket n).time s).length < size :=
      lt_of_le_of_lt (live_length_le _ _ _) (by omega)
    obtain ⟨tb1, q, d, h1, h2⟩ := nat_sends (c := c) r (p := manyPacket n) (Nat.le_refl 0) (by simp [manyPacket, timeMax])
      (by rw [hw]; simp [manyPacket]) (manyPacket_l4 n) hroom
    have hl1 := touch_length_le exp (manyPacket n).time s (flow (manyPacket n))
    obtain ⟨tb2, outs, h3, h4, h5⟩ := ih tb1 _ h2 (by omega)
    refine ⟨tb2, [.transmit q d true] :: outs, by simp [Nf.NatNf.run, h1, h3], by simp [h4], ?_⟩
    intro o ho
    rcases List.mem_cons.1 ho with rfl | ho
    · exact ⟨q, d, rfl⟩
    · exact h5 o ho

/-- The claim of C43 is false of tables of more than 65536 flows: there is a run, in
which no flow expires, where packets of two different flows leave with the same source
port. -/
theorem C43_port_shared_when_table_exceeds_ports (size exp : Nat) (c : Nf.NatNf.Config) (hw : c.wanDevice = 1)
    (hsize : 65536 < size) :
    ∃ (ps : List Packet) (tb tb' : Table Flow) (outs : List (List Out)), (∀ p ∈ ps, p.time = 0 ∧ p.device = 0) ∧
      Nf.NatNf.init exp size = some tb ∧ Nf.NatNf.run c tb ps = some (tb', outs) ∧
      ∃ i j, ∃ (hi : i < ps.length) (hj : j < ps.length) (q q' : Packet) (d d' : Nat), flow ps[i] ≠ flow ps[j] ∧
        outs[i]? = some [.transmit q d true] ∧ outs[j]? = some [.transmit q' d' true] ∧ word q 34 = word q' 34 := by
  obtain ⟨tb, h1, hr⟩ := Nf.rel_alloc size exp Flow.zero
  obtain ⟨tb', outs, h2, h3, h4⟩ := nat_sends_many (c := c) hw (List.range 65537) tb [] hr (by simp; omega)
  refine ⟨(List.range 65537).map manyPacket, tb, tb', outs, ?_, h1, h2, ?_⟩
  · intro p hp
    obtain ⟨n, _, rfl⟩ := List.mem_map.1 hp
    exact ⟨rfl, rfl⟩
  rw [List.length_range] at h3
  let port : Fin 65537 → Fin 65536 := fun i =>
    match outs[i.1]? with
    | some [.transmit q _ _] => ⟨word q 34, word_lt q 34⟩
    | _ => 0
  obtain ⟨i, j, hij, he⟩ := Fintype.exists_ne_map_eq_of_card_lt port (by simp)
  have hi : outs[i.1]? = some outs[i.1] := List.getElem?_eq_getElem (by omega)
  have hj : outs[j.1]? = some outs[j.1] := List.getElem?_eq_getElem (by omega)
  obtain ⟨q, d, hq⟩ := h4 _ (List.getElem_mem (l := outs) (n := i.1) (by omega))
  obtain ⟨q', d', hq'⟩ := h4 _ (List.getElem_mem (l := outs) (n := j.1) (by omega))
  rw [hq] at hi; rw [hq'] at hj
  refine ⟨i.1, j.1, by simp, by simp, q, q', d, d', ?_, hi, hj, ?_⟩
  · intro hf
    simp only [List.getElem_map, List.getElem_range] at hf
    have := manyPacket_flow i.1 j.1 (by omega) (by omega) hf
    exact hij (Fin.ext this)
  · have := congrArg Fin.val he
    simpa [port, hi, hj] using this

end Verif.Props
