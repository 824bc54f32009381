/- Property C46: the bridge learns and forwards correctly. -/
import Verif.Nf.Bridge
import Verif.Nf.NatProofs
import Verif.Nf.ExpiringProofs
import Verif.Spec.Bridge
import Verif.Props.Firewall

set_option autoImplicit false

namespace Verif.Props
open Verif.Nf (Packet Table Out)
open Verif.Nf.Bridge (State Stp)
open Verif.PacketSpec (dword word byte)
open Verif.IndexPoolSpec (timeMax)

theorem ldMac_addr (p : Packet) (i : Nat) : Nf.Bridge.ldMac p.data i = BridgeSpec.addr p i := by
  simp only [Nf.Bridge.ldMac, BridgeSpec.addr, Nf.ld32_dword, Nf.ld16_word]

theorem group_iff (p : Packet) : (p.data 6).toNat % 2 = 0 ↔ ¬ BridgeSpec.group (BridgeSpec.src p) := by
  simp only [BridgeSpec.group, BridgeSpec.src, BridgeSpec.addr, dword, word, byte]
  omega

theorem isStpDst_iff (p : Packet) : Nf.Bridge.isStpDst p.data = true ↔ BridgeSpec.dst p = BridgeSpec.stpAddr := by
  have h0 : (p.data 0).toNat < 256 := UInt8.toNat_lt _
  have h1 : (p.data (0 + 1)).toNat < 256 := UInt8.toNat_lt _
  have h2 : (p.data (0 + 2)).toNat < 256 := UInt8.toNat_lt _
  have h3 : (p.data (0 + 3)).toNat < 256 := UInt8.toNat_lt _
  have h4 : (p.data (0 + 4)).toNat < 256 := UInt8.toNat_lt _
  have h5 : (p.data (0 + 4 + 1)).toNat < 256 := UInt8.toNat_lt _
  simp only [Nf.Bridge.isStpDst, Bool.not_eq_true', Bool.or_eq_false_iff, bne_eq_false_iff_eq]
  simp only [BridgeSpec.dst, BridgeSpec.addr, BridgeSpec.stpAddr, dword, word, byte]
  simp only [Nat.zero_add, show 4 + 1 = 5 from rfl] at *
  omega

theorem writeBpdu_message (p : Packet) (r c s len : Nat) :
    BridgeSpec.Message p { p with data := Nf.Bridge.writeBpdu p.data r c s, length := len } := by
  refine ⟨rfl, rfl, fun x hx => ?_⟩
  simp only [byte, Nf.Bridge.writeBpdu, Nf.Bridge.st64]
  rw [Nf.st32_other, Nf.st32_other, Nf.st32_other, Nf.st32_other, Nf.st32_other] <;> omega

structure BridgeRel (c : BridgeSpec.Config) (now : Nat) (s : State) (t : BridgeSpec.State) : Prop where
  rel : Nf.Rel c.size c.exp now s.table t.seen
  dlen : s.devices.length = c.size
  ports : ∀ a i v, Nf.look s.table a = some (i, v) → ∃ d, s.devices[i]? = some d ∧ t.port a = some d
  last : s.stp.lastUpdate = t.lastUpdate
  upd : s.stp.updateTime = c.updateTime
  blocked : s.stp.disabled = t.blocked
  blen : t.blocked.length = c.devices

/-- Learning. -/
theorem bridge_learn {c : BridgeSpec.Config} {now : Nat} {s : State} {t : BridgeSpec.State} (r : BridgeRel c now s t)
    {p : Packet} (hm : now ≤ p.time) (ht : p.time < timeMax) :
    ∃ table devices, Nf.Bridge.learnSource s p = some (table, devices) ∧
      BridgeRel c p.time { s with table := table, devices := devices } (BridgeSpec.learn c t p) := by
  have rel := r.rel.later hm
  unfold Nf.Bridge.learnSource
  by_cases hg : BridgeSpec.group (BridgeSpec.src p)
  · rw [if_neg (fun h => (group_iff p).1 h hg)]
    refine ⟨s.table, s.devices, rfl, ?_⟩
    rw [BridgeSpec.learn, if_pos hg]
    exact ⟨rel, r.dlen, r.ports, r.last, r.upd, r.blocked, r.blen⟩
  · rw [if_pos ((group_iff p).2 hg), BridgeSpec.learn, if_neg hg, ldMac_addr]
    change ∃ table devices, Nf.Bridge.learn s.table s.devices p.time (BridgeSpec.src p) p.device = some (table, devices) ∧ _
    unfold Nf.Bridge.learn
    cases hget : s.table.map.get (BridgeSpec.src p) with
    | some i =>
      obtain ⟨tb', h1, h2, h3⟩ := Nf.refresh_learn rel ht hget
      obtain ⟨v, _, hl⟩ := Nf.look_of_get rel.inv hget
      have hi : i < s.devices.length := by rw [r.dlen]; exact (Nf.look_key rel.inv hl).2
      refine ⟨tb', s.devices.set i p.device, by simp [h1, hi], h2, by simpa using r.dlen, ?_, r.last, r.upd, r.blocked, r.blen⟩
      intro a j u ha
      simp only at ha ⊢
      rw [h3] at ha
      by_cases he : a = BridgeSpec.src p
      · rw [if_pos he] at ha; cases ha
        exact ⟨p.device, List.getElem?_set_self hi, by rw [if_pos he]⟩
      · rw [if_neg he] at ha
        obtain ⟨d, h4, h5⟩ := r.ports a j u ha
        have hne : i ≠ j := by rintro rfl; exact he (Nf.look_inj rel.inv ha hl)
        exact ⟨d, by simpa [List.getElem?_set, hne] using h4, by rw [if_neg he]; exact h5⟩
    | none =>
      obtain ⟨tb', o, h1, h2, h3, h4, h5, h6, h7⟩ := Nf.insert_learn rel ht hget
      cases o with
      | none =>
        have hnk : Nf.look tb' (BridgeSpec.src p) = none := by
          have hl : Nf.look s.table (BridgeSpec.src p) = none := Nf.look_none_of_get hget
          obtain ⟨tb2, o2, e1, _, hcase⟩ := Nf.insert_spec rel.inv hl ht
          rw [h1] at e1; cases e1
          rcases hcase with ⟨_, hsame, _⟩ | ⟨i, hbad, _⟩
          · rw [hsame, hl]
          · cases hbad
        refine ⟨tb', s.devices, by simp [h1], h2, r.dlen, ?_, r.last, r.upd, r.blocked, r.blen⟩
        intro a j u ha
        simp only at ha ⊢
        have he : a ≠ BridgeSpec.src p := by rintro rfl; rw [hnk] at ha; cases ha
        rw [if_neg he]
        exact r.ports a j u (h6 a j u he ha)
      | some i =>
        obtain ⟨h8, hil, h9⟩ := h4 i rfl
        have hi : i < s.devices.length := by rw [r.dlen]; exact hil
        refine ⟨tb', s.devices.set i p.device, by simp [h1, hi], h2, by simpa using r.dlen, ?_, r.last, r.upd, r.blocked, r.blen⟩
        intro a j u ha
        simp only at ha ⊢
        by_cases he : a = BridgeSpec.src p
        · subst he
          rw [h8] at ha; cases ha
          exact ⟨p.device, List.getElem?_set_self hi, by rw [if_pos rfl]⟩
        · rw [if_neg he]
          have hne : i ≠ j := by
            rintro rfl
            exact he (Nf.look_inj h2.inv ha h8)
          obtain ⟨d, h10, h11⟩ := r.ports a j u (h6 a j u he ha)
          exact ⟨d, by simpa [List.getElem?_set, hne] using h10, h11⟩

/-- Forwarding. -/
theorem bridge_forward {c : BridgeSpec.Config} {s : State} {t : BridgeSpec.State} {p : Packet}
    (r : BridgeRel c p.time s t) :
    ∃ outs, Nf.Bridge.forward s.stp s.table s.devices p = some outs ∧ BridgeSpec.Forward c t p outs := by
  unfold Nf.Bridge.forward
  rw [ldMac_addr]
  change ∃ outs, (match s.table.map.get (BridgeSpec.dst p) with | some index => _ | none => _) = some outs ∧ _
  cases hget : s.table.map.get (BridgeSpec.dst p) with
  | some i =>
    obtain ⟨v, _, hl⟩ := Nf.look_of_get r.rel.inv hget
    obtain ⟨d, h1, h2⟩ := r.ports _ i v hl
    simp only [h1, Option.bind_eq_bind, Option.bind_some]
    by_cases hd : d = p.device
    · rw [if_neg (by simpa using hd)]
      exact ⟨_, rfl, .here (by rw [h2, hd])⟩
    · rw [if_pos hd]
      exact ⟨_, rfl, .known d h2 hd⟩
  | none =>
    refine ⟨_, rfl, ?_⟩
    rw [r.blocked]
    refine .unknown ?_
    rw [Nf.mem_eq r.rel, Nf.liveLook, Nf.look_none_of_get hget]; rfl

theorem bridge_step {c : BridgeSpec.Config} {now : Nat} {s : State} {t : BridgeSpec.State} (r : BridgeRel c now s t)
    {p : Packet} (hm : now ≤ p.time) (ht : p.time < timeMax) (hd : p.device < c.devices) :
    ∃ s' outs t', Nf.Bridge.handle s p = some (s', outs) ∧ BridgeSpec.Step c t p outs t' ∧ BridgeRel c p.time s' t' := by
  have later : BridgeRel c p.time s t := ⟨r.rel.later hm, r.dlen, r.ports, r.last, r.upd, r.blocked, r.blen⟩
  by_cases hper : (t.lastUpdate + c.updateTime) % 2 ^ 64 < p.time
  · refine ⟨{ s with stp := { s.stp with lastUpdate := p.time } }, _, { t with lastUpdate := p.time }, ?_,
      .periodic _ hper (writeBpdu_message p s.stp.root s.stp.rootCost s.stp.self 34), ?_⟩
    · simp only [Nf.Bridge.handle, Nf.Bridge.stpHandle, r.last, r.upd]
      rw [if_pos hper]; simp
    · exact ⟨later.rel, later.dlen, later.ports, rfl, r.upd, r.blocked, r.blen⟩
  by_cases hdst : BridgeSpec.dst p = BridgeSpec.stpAddr
  · -- a spanning tree message
    have hnd : BridgeSpec.isMessage c t p := ⟨by omega, hdst⟩
    have hb : Nf.Bridge.isStpDst p.data = true := (isStpDst_iff p).2 hdst
    have hlen : s.stp.disabled.length = c.devices := by rw [r.blocked, r.blen]
    have hh : ∀ st' outs, Nf.Bridge.stpBpdu s.stp p = some (st', outs) →
        Nf.Bridge.handle s p = some ({ s with stp := st' }, outs) := by
      intro st' outs h
      simp only [Nf.Bridge.handle, Nf.Bridge.stpHandle, r.last, r.upd]
      rw [if_neg hper, hb]
      simp [h]
    have hupd : ∀ root cost, ∃ s' outs t',
        Nf.Bridge.stpUpdated { s.stp with root := root, rootCost := cost, rootPort := p.device } p = some (s', outs) ∧
        BridgeSpec.Step c t p outs t' ∧ BridgeRel c p.time { s with stp := s' } t' := by
      intro root cost
      refine ⟨_, _, { t with blocked := t.blocked.set p.device false }, by
        simp only [Nf.Bridge.stpUpdated]; rw [if_pos (by rw [hlen]; exact hd)], .better _ hnd (writeBpdu_message p root cost s.stp.self p.length), ?_⟩
      exact ⟨later.rel, later.dlen, later.ports, r.last, r.upd, by simp [r.blocked], by simpa using r.blen⟩
    have hbp : ∃ st' outs t', Nf.Bridge.stpBpdu s.stp p = some (st', outs) ∧ BridgeSpec.Step c t p outs t' ∧
        BridgeRel c p.time { s with stp := st' } t' := by
      unfold Nf.Bridge.stpBpdu
      dsimp only
      split
      · rw [if_pos (by rw [hlen]; exact hd)]
        exact ⟨_, _, { t with blocked := t.blocked.set p.device true }, rfl, .worse hnd,
          later.rel, later.dlen, later.ports, r.last, r.upd, by simp [r.blocked], by simpa using r.blen⟩
      split
      · exact hupd _ _
      split
      · exact hupd s.stp.root _
      split
      · exact hupd s.stp.root s.stp.rootCost
      · exact ⟨_, _, t, rfl, .ignored hnd, later⟩
    obtain ⟨st', outs, t', h1, h2, h3⟩ := hbp
    exact ⟨_, outs, t', hh _ _ h1, h2, h3⟩
  · -- a data frame
    have hdata : BridgeSpec.isData c t p := ⟨by omega, hdst⟩
    have hb : Nf.Bridge.isStpDst p.data = false := by
      cases h : Nf.Bridge.isStpDst p.data with
      | false => rfl
      | true => exact absurd ((isStpDst_iff p).1 h) hdst
    obtain ⟨table, devices, h1, h2⟩ := bridge_learn r hm ht
    obtain ⟨outs, h3, h4⟩ := bridge_forward h2
    refine ⟨_, outs, _, ?_, .data outs hdata h4, h2⟩
    simp only at h3
    simp only [Nf.Bridge.handle, Nf.Bridge.stpHandle, r.last, r.upd]
    rw [if_neg hper, hb]
    simp only [Bool.not_false, ↓reduceIte, Option.bind_eq_bind, Option.bind_some, Nf.Bridge.handleData, h1, h3]

/-- The specification's initial state. -/
def bridgeStart (c : BridgeSpec.Config) : BridgeSpec.State :=
  ⟨0, List.replicate c.devices false, [], fun _ => none⟩

/-- C46: every run of the bridge on frames with non-decreasing times is a run of the
specification; in particular it never breaks a contract. -/
theorem C46_bridge_refines_spec (c : BridgeSpec.Config) (bid : Nat) (ps : List Packet) (h2 : 2 ≤ c.devices)
    (hm : MonoFrom 0 ps) (hp : ∀ p ∈ ps, p.time < timeMax ∧ p.device < c.devices) :
    ∃ s0 s outs t, Nf.Bridge.init c.devices bid c.exp c.size c.updateTime = some s0 ∧
      Nf.Bridge.run s0 ps = some (s, outs) ∧ BridgeSpec.Run c (bridgeStart c) ps outs t := by
  obtain ⟨tb, h3, _, hlook⟩ := Nf.inv_alloc 0 c.size c.exp
  obtain ⟨tb0, h3', hrel⟩ := Nf.rel_alloc c.size c.exp 0
  rw [h3] at h3'; cases h3'
  have key : ∀ (ps : List Packet) (now : Nat) (s : State) (t : BridgeSpec.State), BridgeRel c now s t → MonoFrom now ps →
      (∀ p ∈ ps, p.time < timeMax ∧ p.device < c.devices) →
      ∃ s' outs t', Nf.Bridge.run s ps = some (s', outs) ∧ BridgeSpec.Run c t ps outs t' := by
    intro ps
    induction ps with
    | nil => intro now s t _ _ _; exact ⟨s, [], t, rfl, .nil t⟩
    | cons p ps ih =>
      intro now s t r hm hp
      obtain ⟨s1, o, t1, h4, h5, h6⟩ := bridge_step r hm.1 (hp p (by simp)).1 (hp p (by simp)).2
      obtain ⟨s2, os, t2, h7, h8⟩ := ih p.time s1 t1 h6 hm.2 (fun q hq => hp q (by simp [hq]))
      exact ⟨s2, o :: os, t2, by simp [Nf.Bridge.run, h4, h7], .cons h5 h8⟩
  have hinit : Nf.Bridge.init c.devices bid c.exp c.size c.updateTime =
      some { stp := Nf.Bridge.stpInit c.devices bid c.updateTime, table := tb, devices := List.replicate c.size 0 } := by
    simp only [Nf.Bridge.init, h3, if_neg (show ¬ c.devices < 2 by omega), Option.bind_eq_bind, Option.bind_some]
  obtain ⟨s', outs, t', h4, h5⟩ := key ps 0
    { stp := Nf.Bridge.stpInit c.devices bid c.updateTime, table := tb, devices := List.replicate c.size 0 } (bridgeStart c)
    ⟨hrel, by simp, (fun a i v h => by rw [hlook] at h; cases h), rfl, rfl, rfl, by simp [bridgeStart]⟩ hm hp
  exact ⟨_, s', outs, t', hinit, h4, h5⟩

/-- Devices an output goes to, among `n`, for an input on `p.device`. -/
def sentTo (n : Nat) : Out → List Nat
  | .transmit _ d _ => [d]
  | .flood p _ => (List.range n).filter fun d => decide (d ≠ p.device)
  | .floodExcept p dis _ => (List.range n).filter fun d => decide (d ≠ p.device) && !(dis[d]?.getD false)

/-- What the specification guarantees about one data frame: it is sent unmodified, never
back to its input device, never flooded to a blocked port; if it is not flooded, it only
goes to the device on which the destination was last seen. A destination never seen is
flooded. A group destination is flooded if groups have not been recorded. -/
theorem C46_data_frame (c : BridgeSpec.Config) (s s' : BridgeSpec.State) (p : Packet) (outs : List Out)
    (h : BridgeSpec.Step c s p outs s') (hd : BridgeSpec.isData c s p) :
    s' = BridgeSpec.learn c s p ∧
    (∀ o ∈ outs, p.device ∉ sentTo c.devices o) ∧
    (∀ o ∈ outs, (∃ d, o = .transmit p d false ∧ s'.port (BridgeSpec.dst p) = some d) ∨
      (o = .floodExcept p s.blocked false ∧ ∀ d, s.blocked[d]? = some true → d ∉ sentTo c.devices o)) ∧
    (s'.port (BridgeSpec.dst p) = none → outs = [.floodExcept p s.blocked false]) ∧
    (Expiring.mem c.exp p.time s'.seen (BridgeSpec.dst p) = true → ∃ d, s'.port (BridgeSpec.dst p) = some d ∧
      outs = if d = p.device then [] else [.transmit p d false]) := by
  have hblk : (BridgeSpec.learn c s p).blocked = s.blocked := by
    unfold BridgeSpec.learn; split <;> rfl
  cases h with
  | data _ _ hf =>
    refine ⟨rfl, ?_⟩
    cases hf with
    | known d h1 h2 =>
      refine ⟨?_, ?_, ?_, ?_⟩
      · intro o ho; rw [List.mem_singleton.1 ho]; simp [sentTo, Ne.symm h2]
      · intro o ho; exact .inl ⟨d, List.mem_singleton.1 ho, h1⟩
      · intro h3; rw [h1] at h3; cases h3
      · intro _; exact ⟨d, h1, by rw [if_neg h2]⟩
    | here h1 =>
      refine ⟨by simp, by simp, ?_, ?_⟩
      · intro h3; rw [h1] at h3; cases h3
      · intro _; exact ⟨p.device, h1, by rw [if_pos rfl]⟩
    | unknown h1 =>
      rw [hblk]
      refine ⟨?_, ?_, fun _ => rfl, ?_⟩
      · intro o ho; rw [List.mem_singleton.1 ho]; simp [sentTo]
      · intro o ho
        refine .inr ⟨List.mem_singleton.1 ho, ?_⟩
        intro d h2
        rw [List.mem_singleton.1 ho]
        simp [sentTo, h2]
      · intro h2; rw [h1] at h2; cases h2
  | periodic _ h1 _ => exact absurd hd.1 (by omega)
  | worse h1 => exact absurd h1.2 hd.2
  | better _ h1 _ => exact absurd h1.2 hd.2
  | ignored h1 => exact absurd h1.2 hd.2

/-- Group addresses are never recorded. -/
theorem C46_groups_never_learned (c : BridgeSpec.Config) (ps : List Packet) (outs : List (List Out)) (t : BridgeSpec.State)
    (h : BridgeSpec.Run c (bridgeStart c) ps outs t) (a : Nat) (ha : BridgeSpec.group a) : t.port a = none := by
  have key : ∀ (ps : List Packet) (outs : List (List Out)) (s t : BridgeSpec.State), BridgeSpec.Run c s ps outs t →
      s.port a = none → t.port a = none := by
    intro ps outs s t hr
    induction hr with
    | nil _ => exact id
    | cons hs _ ih =>
      intro h0
      apply ih
      cases hs with
      | data _ _ _ =>
        unfold BridgeSpec.learn
        split
        · exact h0
        · rename_i hg
          simp only
          rw [if_neg (by rintro rfl; exact hg ha)]; exact h0
      | periodic _ _ _ => exact h0
      | worse _ => exact h0
      | better _ _ _ => exact h0
      | ignored _ => exact h0
  exact key ps outs _ t h rfl

/-- The recorded device of an address is that of the last data frame from it. -/
theorem C46_port_is_last_seen (c : BridgeSpec.Config) (s s' : BridgeSpec.State) (p : Packet) (outs : List Out)
    (h : BridgeSpec.Step c s p outs s') (a : Nat) :
    s'.port a = if BridgeSpec.isData c s p ∧ BridgeSpec.src p = a ∧ ¬ BridgeSpec.group a then some p.device else s.port a := by
  cases h with
  | data _ hd _ =>
    unfold BridgeSpec.learn
    by_cases hg : BridgeSpec.group (BridgeSpec.src p)
    · rw [if_pos hg, if_neg]
      rintro ⟨_, rfl, h⟩; exact h hg
    · rw [if_neg hg]
      simp only
      by_cases he : a = BridgeSpec.src p
      · subst he; simp [hd, hg]
      · rw [if_neg he, if_neg]
        rintro ⟨_, h, _⟩; exact he h.symm
  | periodic _ hp _ => rw [if_neg]; rintro ⟨h, _⟩; have := h.1; omega
  | worse hd => rw [if_neg]; rintro ⟨h, _⟩; exact h.2 hd.2
  | better _ hd _ => rw [if_neg]; rintro ⟨h, _⟩; exact h.2 hd.2
  | ignored hd => rw [if_neg]; rintro ⟨h, _⟩; exact h.2 hd.2

/-- The root bridge a spanning tree message announces: 8 bytes at offset 14. -/
def announcedRoot (p : Packet) : Nat := dword p 14 + 2 ^ 32 * dword p 18

/-- The smallest of the bridge's own identifier and the roots announced so far. -/
def bestRoot (updateTime : Nat) : Nat → Nat → List Packet → Nat
  | _, best, [] => best
  | last, best, p :: ps =>
    if (last + updateTime) % 2 ^ 64 < p.time then bestRoot updateTime p.time best ps
    else if BridgeSpec.dst p = BridgeSpec.stpAddr then bestRoot updateTime last (min best (announcedRoot p)) ps
    else bestRoot updateTime last best ps

/-- The root the bridge believes in is the smallest identifier it has seen. -/
theorem C46_root_is_minimum (ps : List Packet) (s s' : State) (outs : List (List Out))
    (h : Nf.Bridge.run s ps = some (s', outs)) :
    s'.stp.root = bestRoot s.stp.updateTime s.stp.lastUpdate s.stp.root ps := by
  induction ps generalizing s outs with
  | nil => simp only [Nf.Bridge.run] at h; cases h; rfl
  | cons p ps ih =>
    simp only [Nf.Bridge.run, Option.bind_eq_bind, Option.bind_eq_some_iff, Prod.exists, Option.some.injEq,
      Prod.mk.injEq] at h
    obtain ⟨s1, o, h1, s2, os, h2, rfl, rfl⟩ := h
    have ih := ih s1 os h2
    rw [ih, bestRoot]
    have hroot : Nf.Bridge.ld64 p.data 14 = announcedRoot p := by
      simp only [Nf.Bridge.ld64, announcedRoot, Nf.ld32_dword]
    simp only [Nf.Bridge.handle, Nf.Bridge.stpHandle] at h1
    split at h1
    · rename_i hper
      rw [if_pos hper]
      simp only [Option.bind_eq_bind, Option.bind_some, Option.some.injEq, Prod.mk.injEq] at h1
      rw [← h1.1]
    · rename_i hper
      rw [if_neg hper]
      cases hb : Nf.Bridge.isStpDst p.data with
      | false =>
        rw [hb] at h1
        have hd : ¬ BridgeSpec.dst p = BridgeSpec.stpAddr := fun h => by rw [(isStpDst_iff p).2 h] at hb; cases hb
        rw [if_neg hd]
        simp only [Bool.not_false, ↓reduceIte, Option.bind_eq_bind, Option.bind_some, Nf.Bridge.handleData,
          Option.bind_eq_some_iff, Prod.exists, Option.some.injEq, Prod.mk.injEq] at h1
        obtain ⟨_, _, _, _, _, h3, _⟩ := h1
        rw [← h3]
      | true =>
        rw [hb] at h1
        rw [if_pos ((isStpDst_iff p).1 hb)]
        simp only [Bool.not_true, Bool.false_eq_true, ↓reduceIte, Option.bind_eq_bind, Option.bind_eq_some_iff,
          Option.map_eq_some_iff, Prod.exists, Prod.mk.injEq] at h1
        obtain ⟨st, oo, ⟨st', outs', h3, rfl, rfl⟩, h4⟩ := h1
        simp only [Option.some.injEq, Prod.mk.injEq] at h4
        obtain ⟨h4, _⟩ := h4
        subst h4
        have hst : st'.root = min s.stp.root (announcedRoot p) ∧ st'.updateTime = s.stp.updateTime ∧
            st'.lastUpdate = s.stp.lastUpdate := by
          simp only [Nf.Bridge.stpBpdu, hroot] at h3
          have hu : ∀ (st : Stp), Nf.Bridge.stpUpdated st p = some (st', outs') →
              st'.root = st.root ∧ st'.updateTime = st.updateTime ∧ st'.lastUpdate = st.lastUpdate := by
            intro st h
            simp only [Nf.Bridge.stpUpdated] at h
            split at h
            · cases h; exact ⟨rfl, rfl, rfl⟩
            · cases h
          split at h3
          · rename_i hgt
            split at h3
            · cases h3; exact ⟨(min_eq_left (le_of_lt hgt)).symm, rfl, rfl⟩
            · cases h3
          split at h3
          · rename_i hlt
            obtain ⟨a, b, c⟩ := hu _ h3
            exact ⟨by rw [a, min_eq_right (le_of_lt hlt)], b, c⟩
          have heq : announcedRoot p = s.stp.root := by omega
          rw [heq, min_self]
          split at h3
          · obtain ⟨a, b, c⟩ := hu _ h3; exact ⟨a, b, c⟩
          split at h3
          · obtain ⟨a, b, c⟩ := hu _ h3; exact ⟨a, b, c⟩
          · cases h3; exact ⟨rfl, rfl, rfl⟩
        rw [hst.1, hst.2.1, hst.2.2]

/-- A data frame between two small addresses. -/
def frame (dst src device time : Nat) : Packet where
  data := fun i => if i = 0 then UInt8.ofNat dst else if i = 6 then UInt8.ofNat src else 0
  length := 60
  time := time
  device := device

/-- Non-vacuity: unknown destination, reply to a learned address, frame to an address on
the same device, frame from a group address, reply to it is flooded. -/
example : (∀ p ∈ [frame 4 2 0 1, frame 2 4 1 2, frame 4 6 1 3, frame 8 5 2 4, frame 5 8 1 5], p.time < timeMax ∧ p.device < 3) ∧
    MonoFrom 0 [frame 4 2 0 1, frame 2 4 1 2, frame 4 6 1 3, frame 8 5 2 4, frame 5 8 1 5] ∧
    ((Nf.Bridge.init 3 7 10 4 1000).bind fun s =>
      (Nf.Bridge.run s [frame 4 2 0 1, frame 2 4 1 2, frame 4 6 1 3, frame 8 5 2 4, frame 5 8 1 5]).map
        fun r => r.2.map fun os => os.map (sentTo 3)) = some [[[1, 2]], [[0]], [], [[0, 1]], [[0, 2]]] := by
  refine ⟨?_, ?_, by decide⟩
  · simp [frame, timeMax]
  · simp [MonoFrom, frame]

/-- A spanning tree message announcing `root`. -/
def bpduFrame (root device time : Nat) : Packet where
  data := fun i => if i = 0 then 1 else if i = 1 then 0x80 else if i = 2 then 0xC2 else if i = 14 then UInt8.ofNat root else 0
  length := 60
  time := time
  device := device

/-- Non-vacuity: better root, worse root (blocks its port), then a flood avoids it. -/
example : ((Nf.Bridge.init 4 7 10 4 1000).bind fun s =>
      (Nf.Bridge.run s [bpduFrame 5 0 1, bpduFrame 9 2 2, frame 4 2 0 3]).map
        fun r => (r.1.stp.root, r.2.map fun os => os.map (sentTo 4))) = some (5, [[[1, 2, 3]], [], [[1, 3]]]) := by
  decide

end Verif.Props
