/- Byte-level facts about the NAT's packet rewriting. -/
import Verif.Nf.Nat
import Verif.Nf.PacketProofs

set_option autoImplicit false

namespace Verif.Nf

theorem st16_other (m : Mem) (a v x : Nat) (h : x ≠ a ∧ x ≠ a + 1) : st16 m a v x = m x := by
  simp [st16, h.1, h.2]

theorem st32_other (m : Mem) (a v x : Nat) (h : x < a ∨ a + 4 ≤ x) : st32 m a v x = m x := by
  rw [st32, st16_other _ _ _ _ (by omega), st16_other _ _ _ _ (by omega)]

theorem ld16_st16 (m : Mem) (a v : Nat) (h : v < 65536) : ld16 (st16 m a v) a = v := by
  simp only [ld16, st16, ↓reduceIte, show a + 1 ≠ a by omega]
  simp only [UInt8.toNat_ofNat']
  omega

theorem ld16_congr {m m' : Mem} {a : Nat} (h0 : m a = m' a) (h1 : m (a + 1) = m' (a + 1)) : ld16 m a = ld16 m' a := by
  simp only [ld16, h0, h1]

theorem ld32_congr {m m' : Mem} {a : Nat} (h : ∀ x, a ≤ x → x < a + 4 → m x = m' x) : ld32 m a = ld32 m' a := by
  simp only [ld32]
  rw [ld16_congr (h a (by omega) (by omega)) (h (a + 1) (by omega) (by omega)),
    ld16_congr (h (a + 2) (by omega) (by omega)) (h (a + 2 + 1) (by omega) (by omega))]

theorem ld32_st32 (m : Mem) (a v : Nat) (h : v < 2 ^ 32) : ld32 (st32 m a v) a = v := by
  have e1 : ld16 (st32 m a v) a = v % 65536 := by
    simp only [ld16, st32, st16, show a ≠ a + 2 by omega, show a ≠ a + 2 + 1 by omega, ↓reduceIte,
      show a + 1 ≠ a by omega, show a + 1 ≠ a + 2 by omega, show a + 1 ≠ a + 2 + 1 by omega, UInt8.toNat_ofNat']
    omega
  have e2 : ld16 (st32 m a v) (a + 2) = v / 65536 := by
    rw [st32, ld16_st16]
    omega
  rw [ld32, e1, e2]
  omega

/-- Offset of the checksum in the TCP or UDP header. -/
def l4Checksum (m : Mem) (ip : Nat) : Nat := if (m (ip + 9)).toNat = 6 then ip + 36 else ip + 26

theorem packetChecksumUpdate_other (m : Mem) (ip o n : Nat) (inIp : Bool) (x : Nat)
    (h1 : inIp = true → x ≠ ip + 12 ∧ x ≠ ip + 13) (h2 : x ≠ l4Checksum m ip ∧ x ≠ l4Checksum m ip + 1) :
    packetChecksumUpdate m ip o n inIp x = m x := by
  simp only [packetChecksumUpdate, ipv4Size]
  cases inIp with
  | false =>
    simp only [Bool.false_eq_true, ↓reduceIte]
    simp only [l4Checksum] at h2
    split
    · rename_i h; rw [if_pos h] at h2
      rw [checksumUpdate, st16_other _ _ _ _ (by omega)]
    · rename_i h; rw [if_neg h] at h2
      split
      · rw [checksumUpdate, st16_other _ _ _ _ (by omega)]
      · rfl
  | true =>
    have h1 := h1 rfl
    simp only [↓reduceIte]
    have e : checksumUpdate m (ip + 12) o n (ip + 9) = m (ip + 9) := by
      rw [checksumUpdate, st16_other _ _ _ _ (by omega)]
    have e' : checksumUpdate m (ip + 12) o n x = m x := by
      rw [checksumUpdate, st16_other _ _ _ _ (by omega)]
    simp only [l4Checksum] at h2
    rw [e]
    split
    · rename_i h; rw [if_pos h] at h2
      rw [checksumUpdate, st16_other _ _ _ _ (by omega), e']
    · rename_i h; rw [if_neg h] at h2
      split
      · rw [checksumUpdate, st16_other _ _ _ _ (by omega), e']
      · exact e'

theorem packetChecksumUpdate_proto (m : Mem) (ip o n : Nat) (inIp : Bool) :
    packetChecksumUpdate m ip o n inIp (ip + 9) = m (ip + 9) := by
  apply packetChecksumUpdate_other
  · intro _; omega
  · unfold l4Checksum; split <;> omega

theorem packetChecksumUpdate_l4 (m : Mem) (ip o n : Nat) (inIp : Bool) :
    l4Checksum (packetChecksumUpdate m ip o n inIp) ip = l4Checksum m ip := by
  simp only [l4Checksum, packetChecksumUpdate_proto]

theorem packetChecksumUpdate32_other (m : Mem) (ip o n : Nat) (inIp : Bool) (x : Nat)
    (h1 : inIp = true → x ≠ ip + 12 ∧ x ≠ ip + 13) (h2 : x ≠ l4Checksum m ip ∧ x ≠ l4Checksum m ip + 1) :
    packetChecksumUpdate32 m ip o n inIp x = m x := by
  simp only [packetChecksumUpdate32]
  rw [packetChecksumUpdate_other _ _ _ _ _ _ h1 (by rw [packetChecksumUpdate_l4]; exact h2),
    packetChecksumUpdate_other _ _ _ _ _ _ h1 h2]

theorem packetChecksumUpdate32_l4 (m : Mem) (ip o n : Nat) (inIp : Bool) :
    l4Checksum (packetChecksumUpdate32 m ip o n inIp) ip = l4Checksum m ip := by
  simp only [packetChecksumUpdate32, packetChecksumUpdate_l4]

/-- Outbound rewriting touches only the source address, source port and the TCP/UDP
checksum. -/
theorem rewriteOutbound_other (m : Mem) (ip ea port x : Nat)
    (h1 : x < ip + 12 ∨ ip + 16 ≤ x) (h2 : x ≠ ip + 20 ∧ x ≠ ip + 21)
    (h3 : x ≠ l4Checksum m ip ∧ x ≠ l4Checksum m ip + 1) :
    NatNf.rewriteOutbound m ip (ip + 20) ea port x = m x := by
  simp only [NatNf.rewriteOutbound]
  rw [st16_other _ _ _ _ (by omega), st32_other _ _ _ _ (by omega),
    packetChecksumUpdate_other _ _ _ _ _ _ (by simp) (by rw [packetChecksumUpdate32_l4]; exact h3),
    packetChecksumUpdate32_other _ _ _ _ _ _ (by intro _; omega) h3]

theorem rewriteOutbound_addr (m : Mem) (ip ea port : Nat) (h : ea < 2 ^ 32) :
    ld32 (NatNf.rewriteOutbound m ip (ip + 20) ea port) (ip + 12) = ea := by
  simp only [NatNf.rewriteOutbound]
  rw [ld32_congr (m' := st32 _ (ip + 12) ea) (fun x h1 h2 => st16_other _ _ _ _ (by omega)), ld32_st32 _ _ _ h]

theorem rewriteOutbound_port (m : Mem) (ip ea port : Nat) (h : port < 65536) :
    ld16 (NatNf.rewriteOutbound m ip (ip + 20) ea port) (ip + 20) = port := by
  simp only [NatNf.rewriteOutbound]
  rw [ld16_st16 _ _ _ h]

/-- Inbound rewriting touches only the destination address, destination port, the
TCP/UDP checksum, and (wrongly) the first two bytes of the source address. -/
theorem rewriteInbound_other (m : Mem) (ip : Nat) (fl : Flow) (x : Nat)
    (h0 : x ≠ ip + 12 ∧ x ≠ ip + 13)
    (h1 : x < ip + 16 ∨ ip + 20 ≤ x) (h2 : x ≠ ip + 22 ∧ x ≠ ip + 23)
    (h3 : x ≠ l4Checksum m ip ∧ x ≠ l4Checksum m ip + 1) :
    NatNf.rewriteInbound m ip (ip + 20) fl x = m x := by
  simp only [NatNf.rewriteInbound]
  rw [st16_other _ _ _ _ (by omega), st32_other _ _ _ _ (by omega),
    packetChecksumUpdate_other _ _ _ _ _ _ (by simp) (by rw [packetChecksumUpdate32_l4]; exact h3),
    packetChecksumUpdate32_other _ _ _ _ _ _ (by intro _; omega) h3]

theorem rewriteInbound_addr (m : Mem) (ip : Nat) (fl : Flow) (h : fl.srcIp < 2 ^ 32) :
    ld32 (NatNf.rewriteInbound m ip (ip + 20) fl) (ip + 16) = fl.srcIp := by
  simp only [NatNf.rewriteInbound]
  rw [ld32_congr (m' := st32 _ (ip + 16) fl.srcIp) (fun x h1 h2 => st16_other _ _ _ _ (by omega)), ld32_st32 _ _ _ h]

theorem rewriteInbound_port (m : Mem) (ip : Nat) (fl : Flow) (h : fl.srcPort < 65536) :
    ld16 (NatNf.rewriteInbound m ip (ip + 20) fl) (ip + 22) = fl.srcPort := by
  simp only [NatNf.rewriteInbound]
  rw [ld16_st16 _ _ _ h]

end Verif.Nf
