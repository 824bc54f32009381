/- Property C48: the router. Also the no-op network function. -/
import Verif.Nf.Router
import Verif.Nf.PacketProofs

set_option autoImplicit false

namespace Verif.Props
open Verif.Nf (Packet Out)
open Verif.PacketSpec (isIpv4 byte dword)
open Verif.LpmSpec (Table Route matchesIp best IsSearch)

namespace RouterSpec

/-- Most-significant-byte-first 16-bit field. -/
def net16 (p : Packet) (i : Nat) : Nat := 256 * byte p i + byte p (i + 1)

/-- Ones'-complement sum of 16-bit words (RFC 1071): the sum modulo 65535, where a
multiple of 65535 counts as all ones unless all words are zero. -/
def headerSum (p : Packet) (ihl : Nat) : Nat := ((List.range (2 * ihl)).map fun k => net16 p (14 + 2 * k)).sum

/-- RFC 1812 §5.2.2 (3)-(5): version, header length and total length. -/
def headerLengthsValid (p : Packet) : Prop :=
  byte p 14 / 16 = 4 ∧ 5 ≤ byte p 14 % 16 ∧ 4 * (byte p 14 % 16) ≤ net16 p 16

/-- RFC 1812 §5.2.2 (2): the header sums to all ones. -/
def checksumValid (p : Packet) : Prop := headerSum p (byte p 14 % 16) % 65535 = 0

/-- A packet that must be forwarded if a route exists. -/
def valid (p : Packet) : Prop := isIpv4 p ∧ headerLengthsValid p ∧ checksumValid p ∧ byte p 22 ≠ 0

instance (p : Packet) : Decidable (headerLengthsValid p) := inferInstanceAs (Decidable (_ ∧ _))
instance (p : Packet) : Decidable (checksumValid p) := inferInstanceAs (Decidable (_ = _))
instance (p : Packet) : Decidable (valid p) := inferInstanceAs (Decidable (_ ∧ _))

/-- The claim: forward exactly valid packets with a route, on a longest one. -/
def routesRight (t : Table) (p : Packet) (o : List Out) : Prop :=
  if valid p ∧ ∃ r ∈ t, matchesIp r (dword p 30) then ∃ r, best t (dword p 30) r ∧ o = [.transmit p r.device true] else o = []

end RouterSpec
open RouterSpec

/-- Total length the router reads: least significant byte first. -/
def routerLength (p : Packet) : Nat := byte p 16 + 256 * byte p 17

/-- Exactly what the router does with a packet, for any table: it forwards iff the header
fields it looks at are fine and a route matches, then on a longest matching one. -/
theorem C48_route_exact (search : Table → Nat → Option Nat) (hs : IsSearch search) (t : Table) (p : Packet) :
    if (isIpv4 p ∧ byte p 14 / 16 = 4 ∧ 5 ≤ byte p 14 % 16 ∧ 4 * (byte p 14 % 16) ≤ routerLength p ∧ byte p 22 ≠ 0) ∧
        ∃ r ∈ t, matchesIp r (dword p 30)
    then ∃ r, best t (dword p 30) r ∧ Nf.Router.route search t p = [.transmit p r.device true]
    else Nf.Router.route search t p = [] := by
  have hl : Nf.ld16 p.data (14 + 2) = routerLength p := by simp [Nf.ld16, routerLength, byte]
  have hd : Nf.ld32 p.data (14 + 16) = dword p 30 := Nf.ld32_dword p 30
  have hb : ∀ i, (p.data i).toNat = byte p i := fun _ => rfl
  unfold Nf.Router.route
  simp only [Nf.getIpv4Header_eq]
  by_cases hip : isIpv4 p
  swap
  · simp [hip]
  simp only [hip, if_true, true_and]
  simp only [hl, hd, hb, Nf.Router.checksumValid, Bool.not_true, Bool.false_eq_true, if_false,
    show 14 + 8 = 22 from rfl]
  by_cases h1 : byte p 14 / 16 = 4
  swap
  · simp [h1]
  by_cases h2 : byte p 14 % 16 < 5
  · rw [if_neg (by omega), if_neg (by omega), if_pos h2]
  by_cases h3 : routerLength p < byte p 14 % 16 * 4
  · rw [if_neg (by omega), if_neg (by omega), if_neg h2, if_pos h3]
  by_cases h4 : byte p 22 = 0
  · rw [if_neg (by omega), if_neg (by omega), if_neg h2, if_neg h3, if_pos h4]
  rw [if_neg (not_not.2 h1), if_neg h2, if_neg h3, if_neg h4]
  have := hs t (dword p 30)
  cases he : search t (dword p 30) with
  | none =>
    rw [he] at this
    rw [if_neg]
    rintro ⟨_, r, hr, hm⟩
    exact this r hr hm
  | some d =>
    rw [he] at this
    obtain ⟨r, hr, rfl⟩ := this
    rw [if_pos ⟨⟨h1, by omega, by omega, h4⟩, r, hr.1, hr.2.1⟩]
    exact ⟨r, hr, rfl⟩

/-- C48 for packets with a correct IPv4 checksum and a total length that is big enough, or
too small, in both byte orders. Missing: other packets, for which the claim is false. -/
theorem C48_routes_right_partial (search : Table → Nat → Option Nat) (hs : IsSearch search) (n cap : Nat) (t : Table)
    (p : Packet) (hm : p.device ≠ n - 1) (hc : isIpv4 p → checksumValid p)
    (hl : 4 * (byte p 14 % 16) ≤ net16 p 16 ↔ 4 * (byte p 14 % 16) ≤ routerLength p) :
    ∃ o, Nf.Router.handle search n cap t p = some (t, o) ∧ routesRight t p o := by
  refine ⟨_, by rw [Nf.Router.handle, if_neg hm], ?_⟩
  have := C48_route_exact search hs t p
  unfold routesRight
  have e : valid p ↔ (isIpv4 p ∧ byte p 14 / 16 = 4 ∧ 5 ≤ byte p 14 % 16 ∧ 4 * (byte p 14 % 16) ≤ routerLength p ∧ byte p 22 ≠ 0) := by
    constructor
    · rintro ⟨h1, ⟨h2, h3, h4⟩, h5, h6⟩
      exact ⟨h1, h2, h3, hl.1 h4, h6⟩
    · rintro ⟨h1, h2, h3, h4, h5⟩
      exact ⟨h1, ⟨h2, h3, hl.2 h4⟩, hc h1, h5⟩
  rw [if_congr (and_congr_left' e) rfl rfl]
  exact this

/-- A 20-byte IPv4 header with the given total length bytes, TTL 1 and checksum bytes, to address 10.0.0.1. -/
def routerPacket (len1 len2 sum1 sum2 : UInt8) : Packet where
  data := fun i => if i = 12 then 8 else if i = 14 then 0x45 else if i = 16 then len1 else if i = 17 then len2
    else if i = 22 then 1 else if i = 24 then sum1 else if i = 25 then sum2 else if i = 30 then 10 else if i = 33 then 1 else 0
  length := 60
  time := 0
  device := 0

/-- Some conforming search exists: the first longest match. -/
def searchRef (t : Table) (ip : Nat) : Option Nat :=
  ((t.filter fun r => matchesIp r ip).foldr (fun (r : Route) (a : Option Route) =>
    match a with | none => some r | some b => if b.length ≤ r.length then some r else some b) none).map Route.device

theorem searchRef_is_search : IsSearch searchRef := by
  intro t ip
  have key : ∀ l : List Route, match l.foldr (fun (r : Route) (a : Option Route) =>
      match a with | none => some r | some b => if b.length ≤ r.length then some r else some b) none with
      | none => l = []
      | some r => r ∈ l ∧ ∀ r' ∈ l, r'.length ≤ r.length := by
    intro l
    induction l with
    | nil => simp
    | cons r l ih =>
      simp only [List.foldr_cons]
      cases hf : l.foldr (fun (r : Route) (a : Option Route) =>
          match a with | none => some r | some b => if b.length ≤ r.length then some r else some b) none with
      | none => rw [hf] at ih; simp only at ih; subst ih; simp
      | some b =>
        rw [hf] at ih
        simp only at ih ⊢
        by_cases hb : b.length ≤ r.length
        · rw [if_pos hb]
          refine ⟨by simp, fun r' hr' => ?_⟩
          rcases List.mem_cons.1 hr' with rfl | h
          · exact le_refl _
          · exact le_trans (ih.2 r' h) hb
        · rw [if_neg hb]
          refine ⟨by simp [ih.1], fun r' hr' => ?_⟩
          rcases List.mem_cons.1 hr' with rfl | h
          · omega
          · exact ih.2 r' h
  have := key (t.filter fun r => matchesIp r ip)
  unfold searchRef
  cases hf : (t.filter fun r => decide (matchesIp r ip)).foldr (fun (r : Route) (a : Option Route) =>
      match a with | none => some r | some b => if b.length ≤ r.length then some r else some b) none with
  | none =>
    rw [hf] at this
    simp only [Option.map_none]
    intro r hr hm
    have hmem : r ∈ t.filter fun r => decide (matchesIp r ip) := by simp [hr, hm]
    rw [this] at hmem; cases hmem
  | some r =>
    rw [hf] at this
    simp only [Option.map_some]
    have hm := List.mem_filter.1 this.1
    exact ⟨r, ⟨hm.1, by simpa using hm.2, fun r' h1 h2 => this.2 r' (by simp [h1, h2])⟩, rfl⟩

/-- False: a packet with a wrong IPv4 checksum is forwarded (for every search and every
table with a default route). -/
theorem C48_bad_checksum_forwarded (search : Table → Nat → Option Nat) (hs : IsSearch search) (n cap : Nat) (hn : 2 ≤ n)
    (d : Nat) : ∃ p : Packet, p.device < n ∧ ¬ checksumValid p ∧
      Nf.Router.handle search n cap [⟨0, 0, d⟩] p = some ([⟨0, 0, d⟩], [.transmit p d true]) := by
  refine ⟨routerPacket 0 20 0 0, by simp [routerPacket]; omega, by decide, ?_⟩
  rw [Nf.Router.handle, if_neg (by simp [routerPacket]; omega)]
  have := C48_route_exact search hs [⟨0, 0, d⟩] (routerPacket 0 20 0 0)
  rw [if_pos ⟨by decide, ⟨0, 0, d⟩, by simp, by show 0 / 2 ^ 32 = dword (routerPacket 0 20 0 0) 30 / 2 ^ 32; decide⟩] at this
  obtain ⟨r, ⟨hr, _⟩, ho⟩ := this
  simp only [List.mem_singleton] at hr
  rw [ho, hr]

/-- False: a valid packet of 1280 bytes is dropped although a route exists, because the
total length is read in the wrong byte order. -/
theorem C48_valid_packet_dropped (search : Table → Nat → Option Nat) (hs : IsSearch search) (n cap : Nat) (hn : 2 ≤ n)
    (d : Nat) : ∃ p : Packet, p.device < n ∧ valid p ∧ net16 p 16 = 1280 ∧
      Nf.Router.handle search n cap [⟨0, 0, d⟩] p = some ([⟨0, 0, d⟩], []) := by
  refine ⟨routerPacket 5 0 0xAA 0xFE, by simp [routerPacket]; omega, by decide, by decide, ?_⟩
  rw [Nf.Router.handle, if_neg (by simp [routerPacket]; omega)]
  have := C48_route_exact search hs [⟨0, 0, d⟩] (routerPacket 5 0 0xAA 0xFE)
  rw [if_neg (by rintro ⟨h, _⟩; revert h; decide)] at this
  rw [this]

/-- A management packet. -/
def managePacket (key width value : UInt8) (n : Nat) : Packet where
  data := fun i => if i = 0 then key else if i = 4 then width else if i = 12 then value else 0
  length := 60
  time := 0
  device := n - 1

/-- False: sending the same management command twice calls lpm_set without its
precondition, whatever the capacity (at least 1). -/
theorem C48_repeated_command_violates_contract (search : Table → Nat → Option Nat) (n cap : Nat) (hcap : 0 < cap) :
    Nf.Router.run search n cap [] [managePacket 1 8 0 n, managePacket 1 8 0 n] = none := by
  have e : ∀ t, Nf.Router.handle search n cap t (managePacket 1 8 0 n) =
      ((if LpmSpec.setPre t 1 8 then some (LpmSpec.set cap t 1 8 0) else none).map fun t => (t, [])) := by
    intro t
    have hk : Nf.ld32 (managePacket 1 8 0 n).data 0 = 1 := rfl
    have hw : Nf.Router.ld64 (managePacket 1 8 0 n).data 4 = 8 := rfl
    have hv : Nf.ld16 (managePacket 1 8 0 n).data 12 = 0 := rfl
    rw [Nf.Router.handle, if_pos (by rfl)]
    simp only [Nf.Router.manage, hk, hw, hv]
    rw [if_neg (by omega)]
  have h1 : LpmSpec.setPre [] 1 8 := ⟨by omega, by simp⟩
  have h2 : ¬ LpmSpec.setPre (LpmSpec.set cap [] 1 8 0) 1 8 := by
    simp [LpmSpec.setPre, LpmSpec.set, hcap]
  simp [Nf.Router.run, e, h1, h2]

/-- The packets of a run that are management commands for new routes never break the
contract: any run without repeated commands succeeds, the table never exceeds the
capacity, and management packets are never forwarded. -/
theorem C48_run_safe_partial (search : Table → Nat → Option Nat) (n cap : Nat) (ps : List Packet)
    (hnew : ((ps.filter fun p => p.device = n - 1).map fun p => (Nf.ld32 p.data 0, Nf.Router.ld64 p.data 4)).Nodup) :
    ∃ t os, Nf.Router.run search n cap [] ps = some (t, os) ∧ t.length ≤ cap ∧ os.length = ps.length ∧
      ∀ i (h : i < ps.length), ps[i].device = n - 1 → os[i]? = some [] := by
  have key : ∀ (ps : List Packet) (t : Table), t.length ≤ cap →
      ((ps.filter fun p => p.device = n - 1).map fun p => (Nf.ld32 p.data 0, Nf.Router.ld64 p.data 4)).Nodup →
      (∀ p ∈ ps, p.device = n - 1 → ∀ r ∈ t, ¬ (r.dest = Nf.ld32 p.data 0 ∧ r.length = Nf.Router.ld64 p.data 4)) →
      ∃ t' os, Nf.Router.run search n cap t ps = some (t', os) ∧ t'.length ≤ cap ∧ os.length = ps.length ∧
        ∀ i (h : i < ps.length), ps[i].device = n - 1 → os[i]? = some [] := by
    intro ps
    induction ps with
    | nil => intro t h _ _; exact ⟨t, [], rfl, h, rfl, by simp⟩
    | cons p ps ih =>
      intro t ht hnd hnew
      by_cases hd : p.device = n - 1
      · rw [List.filter_cons_of_pos (by simpa using hd), List.map_cons, List.nodup_cons] at hnd
        have hstep : ∃ t1, Nf.Router.handle search n cap t p = some (t1, []) ∧ t1.length ≤ cap ∧
            (∀ r ∈ t1, r ∈ t ∨ (r.dest = Nf.ld32 p.data 0 ∧ r.length = Nf.Router.ld64 p.data 4)) := by
          rw [Nf.Router.handle, if_pos hd]
          simp only [Nf.Router.manage]
          by_cases hw : Nf.Router.ld64 p.data 4 > 32
          · exact ⟨t, by simp [hw], ht, fun r hr => .inl hr⟩
          · have hp : LpmSpec.setPre t (Nf.ld32 p.data 0) (Nf.Router.ld64 p.data 4) := ⟨by omega, hnew p (by simp) hd⟩
            refine ⟨LpmSpec.set cap t (Nf.ld32 p.data 0) (Nf.Router.ld64 p.data 4) (Nf.ld16 p.data 12), by simp [hw, hp], ?_, ?_⟩
            · unfold LpmSpec.set; split
              · simp; omega
              · exact ht
            · intro r hr
              unfold LpmSpec.set at hr
              split at hr
              · rcases List.mem_cons.1 hr with rfl | h
                · exact .inr ⟨rfl, rfl⟩
                · exact .inl h
              · exact .inl hr
        obtain ⟨t1, h1, h2, h3⟩ := hstep
        obtain ⟨t', os, h4, h5, h6, h7⟩ := ih t1 h2 hnd.2 (by
          intro q hq hqd r hr
          rcases h3 r hr with h | ⟨ha, hb⟩
          · exact hnew q (by simp [hq]) hqd r h
          · rintro ⟨hc, he⟩
            apply hnd.1
            rw [List.mem_map]
            refine ⟨q, by simp [hq, hqd], ?_⟩
            rw [← ha, ← hb, hc, he])
        refine ⟨t', [] :: os, by simp [Nf.Router.run, h1, h4], h5, by simp [h6], ?_⟩
        intro i hi hid
        cases i with
        | zero => rfl
        | succ i => simpa using h7 i (by simpa using hi) (by simpa using hid)
      · rw [List.filter_cons_of_neg (by simpa using hd)] at hnd
        obtain ⟨t', os, h4, h5, h6, h7⟩ := ih t ht hnd (fun q hq => hnew q (by simp [hq]))
        refine ⟨t', Nf.Router.route search t p :: os, by simp [Nf.Router.run, Nf.Router.handle, hd, h4], h5, by simp [h6], ?_⟩
        intro i hi hid
        cases i with
        | zero => exact absurd hid hd
        | succ i => simpa using h7 i (by simpa using hi) (by simpa using hid)
  exact key ps [] (by simp) hnew (by simp)

/-- The no-op function exchanges its two devices: what comes in on one leaves, alone and
unmodified, on the other. -/
theorem C48_nop_exchanges (n wan lan : Nat) (h : Nf.Nop.init n wan lan = some (wan, lan)) (p : Packet)
    (hp : p.device = wan ∨ p.device = lan) :
    ∃ d, Nf.Nop.handle wan lan p = [.transmit p d true] ∧ d < n ∧ d ≠ p.device ∧ ((p.device = wan ∧ d = lan) ∨ (p.device = lan ∧ d = wan)) := by
  unfold Nf.Nop.init at h
  split at h
  · rename_i hc
    refine ⟨_, rfl, ?_, ?_, ?_⟩
    · split <;> omega
    · split <;> omega
    · split <;> omega
  · cases h

/-- Non-vacuity: a valid 20-byte packet, its checksum, the byte-order hypothesis, and the
longest of three routes (to 10/8 in the order of the key's bytes, a longer one, another). -/
example : valid (routerPacket 0 20 0xAF 0xEA) ∧
    (4 * (byte (routerPacket 0 20 0xAF 0xEA) 14 % 16) ≤ net16 (routerPacket 0 20 0xAF 0xEA) 16 ↔
      4 * (byte (routerPacket 0 20 0xAF 0xEA) 14 % 16) ≤ routerLength (routerPacket 0 20 0xAF 0xEA)) ∧
    dword (routerPacket 0 20 0xAF 0xEA) 30 = 0x0100000A ∧
    ((Nf.Router.route searchRef [⟨0x01000000, 8, 1⟩, ⟨0x0100000A, 32, 2⟩, ⟨0x02000000, 8, 3⟩] (routerPacket 0 20 0xAF 0xEA)).map
      fun o => match o with | .transmit _ d _ => some d | _ => none) = [some 2] := by
  refine ⟨by decide, by decide, by decide, by decide⟩

example : ((([managePacket 1 8 0 3, routerPacket 0 20 0 0, managePacket 2 8 1 3].filter fun p => p.device = 3 - 1).map
    fun p => (Nf.ld32 p.data 0, Nf.Router.ld64 p.data 4))).Nodup := by decide

example : Nf.Nop.init 3 2 0 = some (2, 0) := by decide

end Verif.Props
