/- Property C44: NAT rewriting changes only the translated address, port and checksums. -/
import Verif.Props.Nat

set_option autoImplicit false

namespace Verif.Props
open Verif.Nf (Packet Flow Table Out)
open Verif.PacketSpec (isTcpUdp flow dword word byte)
open Verif.IndexPoolSpec (timeMax)

/-- Offset of the TCP (RFC 793) or UDP (RFC 768) checksum in the packet. -/
def l4ChecksumAt (p : Packet) : Nat := if byte p 23 = 6 then 50 else 40

/-- Offsets a packet to the WAN may change: source address and port, checksums. -/
def mayChangeOut (p : Packet) (x : Nat) : Prop :=
  (26 ≤ x ∧ x < 30) ∨ (34 ≤ x ∧ x < 36) ∨ (24 ≤ x ∧ x < 26) ∨ (l4ChecksumAt p ≤ x ∧ x < l4ChecksumAt p + 2)

/-- Offsets a packet from the WAN may change: destination address and port, checksums. -/
def mayChangeIn (p : Packet) (x : Nat) : Prop :=
  (30 ≤ x ∧ x < 34) ∨ (36 ≤ x ∧ x < 38) ∨ (24 ≤ x ∧ x < 26) ∨ (l4ChecksumAt p ≤ x ∧ x < l4ChecksumAt p + 2)

/-- RFC 791/1071: the one's complement sum of the header's words is (minus) zero.
The result does not depend on the byte order in which words are read. -/
def ipv4ChecksumOk (p : Packet) : Prop :=
  (word p 14 + word p 16 + word p 18 + word p 20 + word p 22 + word p 24 + word p 26 + word p 28 + word p 30 + word p 32)
    % 65535 = 0

/-- The full claim about one packet. -/
def RewriteClaim (c : Nf.NatNf.Config) (p q : Packet) : Prop :=
  (p.device ≠ c.wanDevice → ∀ x, ¬ mayChangeOut p x → byte q x = byte p x) ∧
  (p.device = c.wanDevice → ∀ x, ¬ mayChangeIn p x → byte q x = byte p x) ∧
  (ipv4ChecksumOk p → ipv4ChecksumOk q)

/-- What `handle` may output. -/
theorem nat_outputs {c : Nf.NatNf.Config} {tb tb' : Table Flow} {p : Packet} {outs : List Out}
    (h : Nf.NatNf.handle c tb p = some (tb', outs)) {o : Out} (ho : o ∈ outs) :
    isTcpUdp p ∧ ((p.device = c.wanDevice ∧ ∃ f, o = .transmit { p with data := Nf.NatNf.rewriteInbound p.data 14 34 f }
        (Nf.otherDevice p) true) ∨
      (p.device ≠ c.wanDevice ∧ ∃ port, o = .transmit
        { p with data := Nf.NatNf.rewriteOutbound p.data 14 34 c.externalAddr port } (Nf.otherDevice p) true)) := by
  by_cases hip : PacketSpec.isIpv4 p
  swap
  · simp [Nf.NatNf.handle, Nf.getIpv4Header_eq, hip] at h
    rw [h.2] at ho; cases ho
  by_cases hl4 : isTcpUdp p
  swap
  · simp [Nf.NatNf.handle, Nf.getIpv4Header_eq, hip, Nf.getTcpudpHeader_eq p hip, hl4] at h
    rw [h.2] at ho; cases ho
  refine ⟨hl4, ?_⟩
  by_cases hw : p.device = c.wanDevice
  · refine .inl ⟨hw, ?_⟩
    simp only [Nf.NatNf.handle, Nf.getIpv4Header_eq, hip, Nf.getTcpudpHeader_eq p hip, hl4, if_true, if_pos hw] at h
    rw [Option.bind_eq_bind, Option.bind_eq_some_iff] at h
    obtain ⟨⟨tb1, fl⟩, _, h⟩ := h
    cases fl with
    | none => cases h; cases ho
    | some fl =>
      simp only at h
      split at h
      · cases h; cases ho
      · cases h
        exact ⟨fl, List.mem_singleton.1 ho⟩
  · refine .inr ⟨hw, ?_⟩
    simp only [Nf.NatNf.handle, Nf.getIpv4Header_eq, hip, Nf.getTcpudpHeader_eq p hip, hl4, if_true, if_neg hw] at h
    rw [Option.bind_eq_bind, Option.bind_eq_some_iff] at h
    obtain ⟨⟨tb1, port⟩, _, h⟩ := h
    cases port with
    | none => cases h; cases ho
    | some port =>
      cases h
      exact ⟨port, List.mem_singleton.1 ho⟩

theorem l4_eq (p : Packet) : Nf.l4Checksum p.data 14 = l4ChecksumAt p := rfl

/-- C44, the part that holds: a packet sent to the WAN differs from the received one
only in the source address and port and the TCP/UDP checksum. A packet sent inside
differs only in the destination address and port, the TCP/UDP checksum, and the first
two bytes of the source address. Length, device and time are kept.
Missing: those two bytes must not change, and a valid IPv4 header checksum must stay
valid; both are false (`C44_inbound_source_address_corrupted`,
`C44_outbound_checksum_becomes_invalid`). -/
theorem C44_rewrite_partial (c : Nf.NatNf.Config) (tb tb' : Table Flow) (p : Packet) (outs : List Out)
    (h : Nf.NatNf.handle c tb p = some (tb', outs)) (o : Out) (ho : o ∈ outs) :
    ∃ q d, o = .transmit q d true ∧ q.length = p.length ∧ q.device = p.device ∧ q.time = p.time ∧
      (p.device ≠ c.wanDevice → ∀ x, ¬ mayChangeOut p x → byte q x = byte p x) ∧
      (p.device = c.wanDevice → ∀ x, ¬ mayChangeIn p x → x ≠ 26 → x ≠ 27 → byte q x = byte p x) ∧
      byte q 24 = byte p 24 ∧ byte q 25 = byte p 25 := by
  obtain ⟨hl4, ⟨hw, f, rfl⟩ | ⟨hw, port, rfl⟩⟩ := nat_outputs h ho
  · have hc : l4ChecksumAt p = 50 ∨ l4ChecksumAt p = 40 := by unfold l4ChecksumAt; split <;> simp
    have hk : ∀ x, x ≠ 26 → x ≠ 27 → (x < 30 ∨ 34 ≤ x) → x ≠ 36 → x ≠ 37 → x ≠ l4ChecksumAt p → x ≠ l4ChecksumAt p + 1 →
        Nf.NatNf.rewriteInbound p.data 14 34 f x = p.data x := by
      intro x h1 h2 h3 h4 h5 h6 h7
      exact Nf.rewriteInbound_other p.data 14 f x ⟨h1, h2⟩ h3 ⟨h4, h5⟩ ⟨h6, h7⟩
    refine ⟨_, _, rfl, rfl, rfl, rfl, fun hn => absurd hw hn, ?_, ?_, ?_⟩
    · intro _ x hx h1 h2
      simp only [mayChangeIn] at hx
      simp only [byte]
      rw [hk x h1 h2] <;> omega
    · simp only [byte]; rw [hk] <;> omega
    · simp only [byte]; rw [hk] <;> omega
  · have hc : l4ChecksumAt p = 50 ∨ l4ChecksumAt p = 40 := by unfold l4ChecksumAt; split <;> simp
    have hk : ∀ x, (x < 26 ∨ 30 ≤ x) → x ≠ 34 → x ≠ 35 → x ≠ l4ChecksumAt p → x ≠ l4ChecksumAt p + 1 →
        Nf.NatNf.rewriteOutbound p.data 14 34 c.externalAddr port x = p.data x := by
      intro x h3 h4 h5 h6 h7
      exact Nf.rewriteOutbound_other p.data 14 c.externalAddr port x h3 ⟨h4, h5⟩ ⟨h6, h7⟩
    refine ⟨_, _, rfl, rfl, rfl, rfl, ?_, fun hn => absurd hn hw, ?_, ?_⟩
    · intro _ x hx
      simp only [mayChangeOut] at hx
      simp only [byte]
      rw [hk x] <;> omega
    · simp only [byte]; rw [hk] <;> omega
    · simp only [byte]; rw [hk] <;> omega

/-- The incremental checksum update in closed form. -/
theorem checksumWord_eq (c o n : Nat) (hc : c < 65536) (ho : o < 65536) (hn : n < 65536) :
    Nf.checksumWord c o n = (65536 + c + o + 1 - n) % 65536 := by
  simp only [Nf.checksumWord, BitVec.toNat_not, BitVec.toNat_add, BitVec.toNat_ofNat]
  omega

/-- What the incremental update of one 16-bit word does: with `s` the sum of the other
words, `c` the old checksum and `o` the old word, an update of a valid checksum gives a
valid one exactly when no carry has to be folded, i.e. `n + 65535 ≤ c + o`. -/
theorem C44_checksum_update_valid_iff (s c o n : Nat) (hc : c < 65536) (ho : o < 65536) (hn : n < 65536)
    (hv : (s + c + o) % 65535 = 0) :
    (s + Nf.checksumWord c o n + n) % 65535 = 0 ↔ n + 65535 ≤ c + o := by
  rw [checksumWord_eq c o n hc ho hn]
  omega

/-- Non-vacuity, both ways. -/
example : (5 + 65525 + 5) % 65535 = 0 ∧ ¬ (7 + 65535 ≤ 65525 + 5) ∧ (3 + 65532 + 65535) % 65535 = 0 ∧ 9 + 65535 ≤ 65532 + 65535 := by
  omega

/-- Even an update that changes nothing changes the checksum. -/
theorem C44_checksum_update_identity_wrong (c w : Nat) (hc : c < 65536) (hw : w < 65536) :
    Nf.checksumWord c w w = (c + 1) % 65536 ∧ Nf.checksumWord c w w ≠ c := by
  rw [checksumWord_eq c w w hc hw hw]
  omega

/-- The NAT's outputs for a packet sequence. -/
def natOutputs (c : Nf.NatNf.Config) (exp size : Nat) (ps : List Packet) : Option (List (List Out)) :=
  (Nf.NatNf.init exp size).bind fun tb => (Nf.NatNf.run c tb ps).map Prod.snd

/-- Source address of the packet sent for the `i`-th input. -/
def sentSource (i : Nat) (outs : List (List Out)) : Option Nat :=
  match outs[i]? with
  | some [.transmit q _ _] => some (dword q 26)
  | _ => none

/-- The claim is false of packets from the WAN: after an inside packet to 2, the reply
from 2 is delivered with a different source address. -/
theorem C44_inbound_source_address_corrupted :
    ∃ (c : Nf.NatNf.Config) (ps : List Packet) (p q : Packet) (outs : List (List Out)) (d : Nat),
      natOutputs c 10 2 ps = some outs ∧ ps[1]? = some p ∧ outs[1]? = some [.transmit q d true] ∧
      dword q 26 ≠ dword p 26 ∧ ¬ RewriteClaim c p q := by
  have h : ((natOutputs ⟨9, 1, 100⟩ 10 2 [samplePacket 1 2 3 4 0 5, samplePacket 2 9 4 100 1 9]).bind (sentSource 1)) ≠ none ∧
      ((natOutputs ⟨9, 1, 100⟩ 10 2 [samplePacket 1 2 3 4 0 5, samplePacket 2 9 4 100 1 9]).bind (sentSource 1)) ≠ some 2 := by
    decide
  revert h
  cases ho : natOutputs ⟨9, 1, 100⟩ 10 2 [samplePacket 1 2 3 4 0 5, samplePacket 2 9 4 100 1 9] with
  | none => intro h; exact absurd rfl h.1
  | some outs =>
    rintro ⟨h1, h2⟩
    simp only [Option.bind_some] at h1 h2
    revert h1 h2
    rw [sentSource]
    split
    · rename_i q d b hq
      intro _ h2
      have h2 : dword q 26 ≠ 2 := fun e => h2 (by rw [e])
      obtain ⟨tb, hi⟩ : ∃ tb, Nf.NatNf.init 10 2 = some tb := by
        cases hi : Nf.NatNf.init 10 2 with
        | none => simp [natOutputs, hi] at ho
        | some tb => exact ⟨tb, rfl⟩
      have hd : dword (samplePacket 2 9 4 100 1 9) 26 = 2 := by decide
      have hb : b = true := by
        simp only [natOutputs, hi, Option.bind_some, Nf.NatNf.run] at ho
        rw [Option.map_eq_some_iff] at ho
        obtain ⟨⟨tb2, os⟩, hr, rfl⟩ := ho
        simp only [Option.bind_eq_bind, Option.bind_eq_some_iff, Prod.exists, Option.some.injEq, Prod.mk.injEq] at hr
        obtain ⟨tb3, o1, _, tb4, os4, ⟨tb5, o2, h5, _, _, _, _, rfl⟩, _, rfl⟩ := hr
        simp only [List.getElem?_cons_succ, List.getElem?_cons_zero, Option.some.injEq] at hq
        subst hq
        rcases nat_outputs h5 (List.mem_singleton.2 rfl) with ⟨_, ⟨_, _, he⟩ | ⟨_, _, he⟩⟩ <;> cases he <;> rfl
      subst hb
      refine ⟨⟨9, 1, 100⟩, _, samplePacket 2 9 4 100 1 9, q, outs, d, ho, rfl, hq, by rw [hd]; exact h2, ?_⟩
      intro hcl
      have := hcl.2.1 rfl
      apply h2
      rw [← hd]
      simp only [dword]
      rw [this 26, this (26 + 1), this (26 + 2), this (26 + 3)] <;> simp [mayChangeIn, l4ChecksumAt, samplePacket, byte]
    · intro h1; exact absurd rfl h1

/-- A UDP packet from 1.0.0.0 to 2.0.0.0 with a valid IPv4 header checksum. -/
def checksummedPacket : Packet where
  data := fun i => if i = 12 then 8 else if i = 23 then 17 else if i = 24 then 252 else if i = 25 then 238
    else if i = 26 then 1 else if i = 30 then 2 else if i = 34 then 3 else if i = 36 then 4 else 0
  length := 60
  time := 5
  device := 0

/-- The claim is false of packets to the WAN: whatever state the NAT is in, it sends
this packet, which has a valid IPv4 header checksum, with an invalid one. -/
theorem C44_outbound_checksum_becomes_invalid (tb tb' : Table Flow) (startPort : Nat) (q : Packet) (d : Nat) (b : Bool)
    (h : Nf.NatNf.handle ⟨9, 1, startPort⟩ tb checksummedPacket = some (tb', [.transmit q d b])) :
    ipv4ChecksumOk checksummedPacket ∧ ¬ ipv4ChecksumOk q := by
  refine ⟨by simp [ipv4ChecksumOk, word, byte, checksummedPacket], ?_⟩
  obtain ⟨q', d', he, _, _, _, hout, _, h24, h25⟩ := C44_rewrite_partial _ _ _ _ _ h _ (List.mem_singleton.2 rfl)
  cases he
  have hout := hout (by simp [checksummedPacket])
  have hsrc : dword q 26 = 9 := by
    obtain ⟨_, ⟨hw, _⟩ | ⟨_, port, he⟩⟩ := nat_outputs h (List.mem_singleton.2 rfl)
    · simp [checksummedPacket] at hw
    · cases he
      rw [← Nf.ld32_dword]; exact Nf.rewriteOutbound_addr _ 14 9 port (by omega)
  have hb : ∀ x, x < 26 ∨ (30 ≤ x ∧ x < 34) → byte q x = byte checksummedPacket x := by
    intro x hx
    by_cases h1 : x = 24
    · subst h1; exact h24
    by_cases h2 : x = 25
    · subst h2; exact h25
    apply hout
    simp only [mayChangeOut, l4ChecksumAt, checksummedPacket, byte]
    simp
    omega
  have hw2 : word q 26 + 65536 * word q 28 = 9 := by rw [← hsrc]; simp only [word, dword, show 26 + 2 = 28 from rfl, show 26 + 3 = 28 + 1 from rfl]; omega
  simp only [ipv4ChecksumOk]
  simp only [word] at hw2 ⊢
  rw [hb 14, hb (14 + 1), hb 16, hb (16 + 1), hb 18, hb (18 + 1), hb 20, hb (20 + 1), hb 22, hb (22 + 1), hb 24, hb (24 + 1),
    hb 30, hb (30 + 1), hb 32, hb (32 + 1)] <;> try omega
  simp [byte, checksummedPacket] at hw2 ⊢
  omega

/-- Non-vacuity: the NAT does send that packet. -/
example : ((natOutputs ⟨9, 1, 100⟩ 10 2 [checksummedPacket]).bind (sentSource 0)) = some 9 := by decide

end Verif.Props
