/- The byte-level network functions of Verif.Nf.Low give the outputs of the contract-level
ones. -/
import Verif.Nf.LowProofs

set_option autoImplicit false

namespace Verif.Nf.Low
open Verif.IndexPool

/-- A flow built from header fields. -/
theorem header_flow_ok (m : Mem) (a b c d e : Nat) : FlowOk ⟨ld32 m a, ld32 m b, ld16 m c, ld16 m d, (m e).toNat⟩ :=
  ⟨ld32_lt _ _, ld32_lt _ _, ld16_lt _ _, ld16_lt _ _, u8_lt _⟩

section
variable {l : Layout} {s : State} {tb tb' : Table Flow}

/-! ### The firewall -/

theorem learnInternal_sim (f : Fits l) (hks : l.ks = 16) (r : Sim FlowOk flowBytes l s tb) {time kp : Nat} {fl : Flow}
    (hV : FlowOk fl) (hb : bytesAt s.mem kp 16 = flowBytes fl) (h : Nf.Firewall.learnInternal tb time fl = some tb') :
    ∃ s', Firewall.learnInternal l s time kp = some s' ∧ Sim FlowOk flowBytes l s' tb' := by
  have e : Enc FlowOk flowBytes l.ks := hks ▸ flow_enc
  rw [← hks] at hb
  have hg := sim_get e r hV hb
  unfold Nf.Firewall.learnInternal at h
  cases hm : tb.map.get fl with
  | some i =>
    rw [hm] at h hg
    obtain ⟨s', h1, _, h2⟩ := sim_refresh r h
    exact ⟨s', by simp [Firewall.learnInternal, hg, h1], h2⟩
  | none =>
    rw [hm] at h hg
    simp only at h
    cases hi : tb.insert time fl with
    | none => simp [hi] at h
    | some x =>
      obtain ⟨tb1, o⟩ := x
      simp [hi] at h
      subst h
      obtain ⟨s', h1, h2, _⟩ := sim_insert e f r hV hb hi
      exact ⟨s', by simp [Firewall.learnInternal, hg, h1], h2⟩

theorem hasExternal_sim (hks : l.ks = 16) (r : Sim FlowOk flowBytes l s tb) {time kp : Nat} {fl : Flow} {b : Bool}
    (hV : FlowOk fl) (hb : bytesAt s.mem kp 16 = flowBytes fl) (h : Nf.Firewall.hasExternal tb time fl = some (tb', b)) :
    ∃ s', Firewall.hasExternal s time kp = some (s', b) ∧ Sim FlowOk flowBytes l s' tb' := by
  have e : Enc FlowOk flowBytes l.ks := hks ▸ flow_enc
  rw [← hks] at hb
  have hg := sim_get e r hV hb
  unfold Nf.Firewall.hasExternal at h
  cases hm : tb.map.get fl with
  | none =>
    rw [hm] at h hg
    simp only [Option.some.injEq, Prod.mk.injEq] at h
    obtain ⟨rfl, rfl⟩ := h
    exact ⟨s, by simp [Firewall.hasExternal, hg], r⟩
  | some i =>
    rw [hm] at h hg
    simp only at h
    cases hu : used tb.pool time i with
    | none => simp [hu] at h
    | some u =>
      cases u with
      | false =>
        simp [hu] at h
        obtain ⟨rfl, rfl⟩ := h
        exact ⟨s, by simp [Firewall.hasExternal, hg, r.pool, hu], r⟩
      | true =>
        simp [hu] at h
        cases hr : tb.refresh time i with
        | none => simp [hr] at h
        | some tb1 =>
          simp [hr] at h
          obtain ⟨rfl, rfl⟩ := h
          obtain ⟨s', h1, _, h2⟩ := sim_refresh r hr
          exact ⟨s', by simp [Firewall.hasExternal, hg, r.pool, hu, h1], h2⟩

theorem firewall_sim (f : Fits l) (hks : l.ks = 16) (r : Sim FlowOk flowBytes l s tb) {ext : Nat} {p : Packet}
    {o : List Out} (h : Nf.Firewall.handle ext tb p = some (tb', o)) :
    ∃ s', Firewall.handle l ext s p = some (s', o) ∧ Sim FlowOk flowBytes l s' tb' := by
  have r1 := sim_receive f r p
  unfold Nf.Firewall.handle at h
  unfold Firewall.handle
  dsimp only at h ⊢
  cases h1 : getIpv4Header p.data (getEtherHeader p) with
  | none =>
    rw [h1] at h
    simp only [Option.some.injEq, Prod.mk.injEq] at h
    obtain ⟨rfl, rfl⟩ := h
    exact ⟨_, rfl, r1⟩
  | some ip =>
    rw [h1] at h
    dsimp only at h ⊢
    cases h2 : getTcpudpHeader p.data ip with
    | none =>
      rw [h2] at h
      simp only [Option.some.injEq, Prod.mk.injEq] at h
      obtain ⟨rfl, rfl⟩ := h
      exact ⟨_, rfl, r1⟩
    | some l4 =>
      rw [h2] at h
      dsimp only at h ⊢
      split at h
      · rename_i hd
        rw [if_pos hd]
        cases hx : Nf.Firewall.hasExternal tb p.time ⟨ld32 p.data (ip + 16), ld32 p.data (ip + 12), ld16 p.data (l4 + 2),
            ld16 p.data l4, (p.data (ip + 9)).toNat⟩ with
        | none => simp [hx] at h
        | some y =>
          obtain ⟨tb1, b⟩ := y
          obtain ⟨s', h3, h4⟩ := hasExternal_sim hks (sim_putFlow f r1 _) (header_flow_ok _ _ _ _ _ _)
            (putFlow_bytes l _ _) hx
          simp only [hx, Option.bind_eq_bind, Option.bind_some] at h
          simp only [h3, Option.bind_eq_bind, Option.bind_some]
          cases b <;> simp at h ⊢ <;> (obtain ⟨rfl, rfl⟩ := h; exact ⟨rfl, h4⟩)
      · rename_i hd
        rw [if_neg hd]
        cases hx : Nf.Firewall.learnInternal tb p.time ⟨ld32 p.data (ip + 12), ld32 p.data (ip + 16), ld16 p.data l4,
            ld16 p.data (l4 + 2), (p.data (ip + 9)).toNat⟩ with
        | none => simp [hx] at h
        | some tb1 =>
          obtain ⟨s', h3, h4⟩ := learnInternal_sim f hks (sim_putFlow f r1 _) (header_flow_ok _ _ _ _ _ _)
            (putFlow_bytes l _ _) hx
          simp only [hx, Option.bind_eq_bind, Option.bind_some, Option.some.injEq, Prod.mk.injEq] at h
          obtain ⟨rfl, rfl⟩ := h
          exact ⟨s', by simp [h3], h4⟩

/-! ### The NAT -/

theorem getInternal_sim (f : Fits l) (hks : l.ks = 16) (r : Sim FlowOk flowBytes l s tb) {start time kp : Nat} {fl : Flow}
    {o : Option Nat} (hV : FlowOk fl) (hb : bytesAt s.mem kp 16 = flowBytes fl)
    (h : Nf.NatNf.getInternal start tb time fl = some (tb', o)) :
    ∃ s', NatNf.getInternal l start s time kp = some (s', o) ∧ Sim FlowOk flowBytes l s' tb' := by
  have e : Enc FlowOk flowBytes l.ks := hks ▸ flow_enc
  rw [← hks] at hb
  have hg := sim_get e r hV hb
  unfold Nf.NatNf.getInternal at h
  cases hm : tb.map.get fl with
  | some i =>
    rw [hm] at h hg
    simp only at h
    cases hr : tb.refresh time i with
    | none => simp [hr] at h
    | some tb1 =>
      simp [hr] at h
      obtain ⟨rfl, rfl⟩ := h
      obtain ⟨s', h1, _, h2⟩ := sim_refresh r hr
      exact ⟨s', by simp [NatNf.getInternal, hg, h1], h2⟩
  | none =>
    rw [hm] at h hg
    simp only at h
    cases hi : tb.insert time fl with
    | none => simp [hi] at h
    | some x =>
      obtain ⟨tb1, o1⟩ := x
      obtain ⟨s', h1, h2, _⟩ := sim_insert e f r hV hb hi
      cases o1 <;> simp [hi] at h <;> obtain ⟨rfl, rfl⟩ := h <;>
        exact ⟨s', by simp [NatNf.getInternal, hg, h1], h2⟩

theorem getExternal_sim (hks : l.ks = 16) (r : Sim FlowOk flowBytes l s tb) {start time port : Nat}
    {o : Option Flow} (h : Nf.NatNf.getExternal start tb time port = some (tb', o)) :
    ∃ s', NatNf.getExternal l start s time port = some (s', o) ∧ Sim FlowOk flowBytes l s' tb' := by
  unfold Nf.NatNf.getExternal at h
  unfold NatNf.getExternal
  dsimp only at h ⊢
  generalize (65536 + port - start) % 65536 = i at h ⊢
  rw [r.pool]
  cases hu : used tb.pool time i with
  | none => simp [hu] at h
  | some u =>
    cases u with
    | false =>
      simp [hu] at h
      obtain ⟨rfl, rfl⟩ := h
      exact ⟨s, by simp, r⟩
    | true =>
      simp [hu] at h
      cases hr : tb.refresh time i with
      | none => simp [hr] at h
      | some tb1 =>
        obtain ⟨s', h1, _, h2⟩ := sim_refresh r hr
        simp [hr] at h
        cases hk : tb1.keys[i]? with
        | none => simp [hk] at h
        | some k =>
          simp [hk] at h
          obtain ⟨rfl, rfl⟩ := h
          have hi : i < l.size := by rw [← h2.len]; exact (List.getElem?_eq_some_iff.1 hk).1
          refine ⟨s', ?_, h2⟩
          have hb := h2.cells i k hk
          rw [hks] at hb
          simp [h1, hi, loadFlow_flowBytes (h2.keysV k (List.mem_of_getElem? hk)) hb]

theorem nat_sim (f : Fits l) (hks : l.ks = 16) (r : Sim FlowOk flowBytes l s tb) {c : Nf.NatNf.Config} {p : Packet}
    {o : List Out} (h : Nf.NatNf.handle c tb p = some (tb', o)) :
    ∃ s', NatNf.handle l c s p = some (s', o) ∧ Sim FlowOk flowBytes l s' tb' := by
  have r1 := sim_receive f r p
  unfold Nf.NatNf.handle at h
  unfold NatNf.handle
  dsimp only at h ⊢
  cases h1 : getIpv4Header p.data (getEtherHeader p) with
  | none =>
    rw [h1] at h
    simp only [Option.some.injEq, Prod.mk.injEq] at h
    obtain ⟨rfl, rfl⟩ := h
    exact ⟨_, rfl, r1⟩
  | some ip =>
    rw [h1] at h
    dsimp only at h ⊢
    cases h2 : getTcpudpHeader p.data ip with
    | none =>
      rw [h2] at h
      simp only [Option.some.injEq, Prod.mk.injEq] at h
      obtain ⟨rfl, rfl⟩ := h
      exact ⟨_, rfl, r1⟩
    | some l4 =>
      rw [h2] at h
      dsimp only at h ⊢
      split at h
      · rename_i hd
        rw [if_pos hd]
        cases hx : Nf.NatNf.getExternal c.startPort tb p.time (ld16 p.data (l4 + 2)) with
        | none => simp [hx] at h
        | some y =>
          obtain ⟨tb1, b⟩ := y
          obtain ⟨s', h3, h4⟩ := getExternal_sim hks r1 hx
          simp only [hx, Option.bind_eq_bind, Option.bind_some] at h
          simp only [h3, Option.bind_eq_bind, Option.bind_some]
          cases b with
          | none =>
            simp only [Option.some.injEq, Prod.mk.injEq] at h
            obtain ⟨rfl, rfl⟩ := h
            exact ⟨s', rfl, h4⟩
          | some fl =>
            dsimp only at h ⊢
            split at h
            · rename_i hc
              rw [if_pos hc]
              simp only [Option.some.injEq, Prod.mk.injEq] at h
              obtain ⟨rfl, rfl⟩ := h
              exact ⟨s', rfl, h4⟩
            · rename_i hc
              rw [if_neg hc]
              simp only [Option.some.injEq, Prod.mk.injEq] at h
              obtain ⟨rfl, rfl⟩ := h
              exact ⟨s', rfl, h4⟩
      · rename_i hd
        rw [if_neg hd]
        cases hx : Nf.NatNf.getInternal c.startPort tb p.time ⟨ld32 p.data (ip + 12), ld32 p.data (ip + 16), ld16 p.data l4,
            ld16 p.data (l4 + 2), (p.data (ip + 9)).toNat⟩ with
        | none => simp [hx] at h
        | some y =>
          obtain ⟨tb1, b⟩ := y
          obtain ⟨s', h3, h4⟩ := getInternal_sim f hks (sim_putFlow f r1 _) (header_flow_ok _ _ _ _ _ _)
            (putFlow_bytes l _ _) hx
          simp only [hx, Option.bind_eq_bind, Option.bind_some] at h
          simp only [h3, Option.bind_eq_bind, Option.bind_some]
          cases b <;> simp only [Option.some.injEq, Prod.mk.injEq] at h <;> obtain ⟨rfl, rfl⟩ := h <;> exact ⟨s', rfl, h4⟩

end

/-! ### The policer -/

/-- Valid 32-bit keys. -/
abbrev V32 (n : Nat) : Prop := n < 2 ^ 32
/-- Valid 48-bit keys. -/
abbrev V48 (n : Nat) : Prop := n < 2 ^ 48

/-- The byte-level policer represents the contract-level one. -/
structure PolicerSim (l : Layout) (s : Policer.State) (t : Nf.Policer.State) : Prop where
  table : Sim V32 enc4 l s.table t.table
  buckets : s.buckets = t.buckets

theorem policer_sim {l : Layout} {s : Policer.State} {t t' : Nf.Policer.State} (f : Fits l) (hks : l.ks = 4)
    (r : PolicerSim l s t) {c : Nf.Policer.Config} {p : Packet} {o : List Out}
    (h : Nf.Policer.handle c t p = some (t', o)) :
    ∃ s', Policer.handle l c s p = some (s', o) ∧ PolicerSim l s' t' := by
  have r1 := sim_receive f r.table p
  have e : Enc V32 enc4 l.ks := hks ▸ enc4_enc
  unfold Nf.Policer.handle at h
  unfold Policer.handle
  dsimp only at h ⊢
  cases h1 : getIpv4Header p.data (getEtherHeader p) with
  | none =>
    rw [h1] at h
    simp only [Option.some.injEq, Prod.mk.injEq] at h
    obtain ⟨rfl, rfl⟩ := h
    exact ⟨_, rfl, r1, r.buckets⟩
  | some ip =>
    have hip : ip = 14 := by
      unfold getIpv4Header at h1
      split at h1
      · cases h1; rfl
      · cases h1
    rw [h1] at h
    dsimp only at h ⊢
    split at h
    · rename_i hd
      rw [if_pos hd]
      have hb : bytesAt (receive l s.table p).mem (l.pkt + (ip + 16)) l.ks = enc4 (ld32 p.data (ip + 16)) := by
        rw [enc4_ld32, hks, receive_bytes _ _ _ _ _ (by unfold bufferSize; omega)]
        rfl
      have hV : V32 (ld32 p.data (ip + 16)) := ld32_lt _ _
      generalize ld32 p.data (ip + 16) = addr at h hb hV
      generalize l.pkt + (ip + 16) = kp at hb ⊢
      have hg := sim_get e r1 hV hb
      have hpol : ∀ {t1 : Nf.Policer.State} {b : Bool}, Nf.Policer.police c t p.time p.length addr = some (t1, b) →
          ∃ s', Policer.police l c { s with table := receive l s.table p } p.time p.length kp = some (s', b) ∧
            PolicerSim l s' t1 := by
        intro t1 b hx
        unfold Nf.Policer.police at hx
        unfold Policer.police
        simp only [hg, Option.bind_eq_bind, Option.bind_some]
        cases hm : t.table.map.get addr with
        | some i =>
          rw [hm] at hx
          simp only at hx ⊢
          unfold Nf.Policer.known at hx
          unfold Policer.known
          cases hr : t.table.refresh p.time i with
          | none => simp [hr] at hx
          | some tb1 =>
            obtain ⟨s1, h2, _, h3⟩ := sim_refresh r1 hr
            simp only [h2, r.buckets, Option.bind_eq_bind, Option.bind_some]
            simp only [hr, Option.bind_eq_bind, Option.bind_some] at hx
            cases hbk : t.buckets[i]? with
            | none => simp [hbk] at hx
            | some bk =>
              simp only [hbk, Option.bind_some] at hx ⊢
              split at hx
              · rename_i hc
                rw [if_pos hc]
                simp only [Option.some.injEq, Prod.mk.injEq] at hx
                obtain ⟨rfl, rfl⟩ := hx
                exact ⟨_, rfl, h3, rfl⟩
              · rename_i hc
                rw [if_neg hc]
                simp only [Option.some.injEq, Prod.mk.injEq] at hx
                obtain ⟨rfl, rfl⟩ := hx
                exact ⟨_, rfl, h3, rfl⟩
        | none =>
          rw [hm] at hx
          simp only at hx ⊢
          unfold Nf.Policer.unknown at hx
          unfold Policer.unknown
          split at hx
          · rename_i hc
            rw [if_pos hc]
            simp only [Option.some.injEq, Prod.mk.injEq] at hx
            obtain ⟨rfl, rfl⟩ := hx
            exact ⟨_, rfl, r1, r.buckets⟩
          · rename_i hc
            rw [if_neg hc]
            cases hi : t.table.insert p.time addr with
            | none => simp [hi] at hx
            | some y =>
              obtain ⟨tb1, o1⟩ := y
              obtain ⟨s1, h2, h3, _⟩ := sim_insert e f r1 hV hb hi
              simp only [hi, Option.bind_eq_bind, Option.bind_some] at hx
              simp only [h2, Option.bind_eq_bind, Option.bind_some, r.buckets]
              cases o1 with
              | none =>
                simp only [Option.some.injEq, Prod.mk.injEq] at hx
                obtain ⟨rfl, rfl⟩ := hx
                exact ⟨_, rfl, h3, rfl⟩
              | some i =>
                simp only at hx ⊢
                split at hx
                · rename_i hc
                  rw [if_pos hc]
                  simp only [Option.some.injEq, Prod.mk.injEq] at hx
                  obtain ⟨rfl, rfl⟩ := hx
                  exact ⟨_, rfl, h3, rfl⟩
                · cases hx
      cases hx : Nf.Policer.police c t p.time p.length addr with
      | none => simp [hx] at h
      | some y =>
        obtain ⟨t1, b⟩ := y
        obtain ⟨s', h2, h3⟩ := hpol hx
        simp only [hx, Option.bind_eq_bind, Option.bind_some] at h
        simp only [h2, Option.bind_eq_bind, Option.bind_some]
        cases b <;> simp only [Option.some.injEq, Prod.mk.injEq] at h <;> obtain ⟨rfl, rfl⟩ := h <;> exact ⟨s', rfl, h3⟩
    · rename_i hd
      rw [if_neg hd]
      simp only [Option.some.injEq, Prod.mk.injEq] at h
      obtain ⟨rfl, rfl⟩ := h
      exact ⟨_, rfl, r1, r.buckets⟩

/-! ### The bridge -/

/-- The byte-level bridge represents the contract-level one. -/
structure BridgeSim (l : Layout) (s : Bridge.State) (t : Nf.Bridge.State) : Prop where
  stp : s.stp = t.stp
  table : Sim V48 enc6 l s.table t.table
  devices : s.devices = t.devices

theorem bridge_learn_sim {l : Layout} {s : State} {tb tb' : Table Nat} (f : Fits l) (hks : l.ks = 6)
    (r : Sim V48 enc6 l s tb) {devices devices' : List Nat} {time kp src device : Nat} (hV : V48 src)
    (hb : bytesAt s.mem kp l.ks = enc6 src)
    (h : Nf.Bridge.learn tb devices time src device = some (tb', devices')) :
    ∃ s', Bridge.learn l s devices time kp device = some (s', devices') ∧ Sim V48 enc6 l s' tb' ∧
      ∀ a n, (a + n ≤ l.keys ∨ l.keys + l.ks * l.size ≤ a) → bytesAt s'.mem a n = bytesAt s.mem a n := by
  have e : Enc V48 enc6 l.ks := hks ▸ enc6_enc
  have hg := sim_get e r hV hb
  unfold Nf.Bridge.learn at h
  unfold Bridge.learn
  simp only [hg, Option.bind_eq_bind, Option.bind_some]
  cases hm : tb.map.get src with
  | some i =>
    rw [hm] at h
    simp only at h ⊢
    cases hr : tb.refresh time i with
    | none => simp [hr] at h
    | some tb1 =>
      obtain ⟨s1, h2, h2m, h3⟩ := sim_refresh r hr
      simp only [hr, Option.bind_eq_bind, Option.bind_some] at h
      simp only [h2, Option.bind_some]
      split at h
      · rename_i hc
        rw [if_pos hc]
        simp only [Option.some.injEq, Prod.mk.injEq] at h
        obtain ⟨rfl, rfl⟩ := h
        exact ⟨_, rfl, h3, fun _ _ _ => by rw [h2m]⟩
      · cases h
  | none =>
    rw [hm] at h
    simp only at h ⊢
    cases hi : tb.insert time src with
    | none => simp [hi] at h
    | some y =>
      obtain ⟨tb1, o1⟩ := y
      obtain ⟨s1, h2, h3, h4⟩ := sim_insert e f r hV hb hi
      simp only [hi, Option.bind_eq_bind, Option.bind_some] at h
      simp only [h2, Option.bind_some]
      cases o1 with
      | none =>
        simp only [Option.some.injEq, Prod.mk.injEq] at h
        obtain ⟨rfl, rfl⟩ := h
        exact ⟨_, rfl, h3, h4⟩
      | some i =>
        simp only at h ⊢
        split at h
        · rename_i hc
          rw [if_pos hc]
          simp only [Option.some.injEq, Prod.mk.injEq] at h
          obtain ⟨rfl, rfl⟩ := h
          exact ⟨_, rfl, h3, h4⟩
        · cases h

theorem bridge_sim {l : Layout} {s : Bridge.State} {t t' : Nf.Bridge.State} (f : Fits l) (hks : l.ks = 6)
    (r : BridgeSim l s t) {p : Packet} {o : List Out} (h : Nf.Bridge.handle t p = some (t', o)) :
    ∃ s', Bridge.handle l s p = some (s', o) ∧ BridgeSim l s' t' := by
  have r1 := sim_receive f r.table p
  have e : Enc V48 enc6 l.ks := hks ▸ enc6_enc
  unfold Nf.Bridge.handle at h
  unfold Bridge.handle
  dsimp only
  rw [r.stp]
  cases hs : Nf.Bridge.stpHandle t.stp p with
  | none => simp [hs] at h
  | some y =>
    obtain ⟨stp, oo⟩ := y
    simp only [hs, Option.bind_eq_bind, Option.bind_some] at h ⊢
    cases oo with
    | some outs =>
      simp only [Option.some.injEq, Prod.mk.injEq] at h
      obtain ⟨rfl, rfl⟩ := h
      exact ⟨_, rfl, rfl, r1, r.devices⟩
    | none =>
      simp only at h ⊢
      have hbytes : ∀ o, o + 6 ≤ bufferSize →
          bytesAt (receive l s.table p).mem (l.pkt + o) l.ks = enc6 (Nf.Bridge.ldMac p.data o) := by
        intro o ho
        rw [enc6_ldMac, hks, receive_bytes _ _ _ _ _ ho]
        rfl
      unfold Nf.Bridge.handleData at h
      unfold Bridge.handleData
      dsimp only at h ⊢
      have hlearn : ∀ {tb1 : Table Nat} {dv : List Nat}, Nf.Bridge.learnSource { t with stp := stp } p = some (tb1, dv) →
          ∃ s1, Bridge.learnSource l ⟨stp, receive l s.table p, s.devices⟩ p = some (s1, dv) ∧ Sim V48 enc6 l s1 tb1 ∧
            bytesAt s1.mem l.pkt l.ks = enc6 (Nf.Bridge.ldMac p.data 0) := by
        intro tb1 dv hx
        unfold Nf.Bridge.learnSource at hx
        unfold Bridge.learnSource
        split at hx
        · rename_i hc
          rw [if_pos hc]
          dsimp only at hx ⊢
          rw [r.devices]
          obtain ⟨s1, h1, h2, h3⟩ := bridge_learn_sim f hks r1 (ldMac_lt _ _) (hbytes 6 (by unfold bufferSize; omega)) hx
          refine ⟨s1, h1, h2, ?_⟩
          have hp := f.pkt
          have hb0 := hbytes 0 (by unfold bufferSize; omega)
          rw [Nat.add_zero] at hb0
          rw [h3 _ _ (by unfold bufferSize at hp; omega), hb0]
        · rename_i hc
          rw [if_neg hc]
          simp only [Option.some.injEq, Prod.mk.injEq] at hx
          obtain ⟨rfl, rfl⟩ := hx
          refine ⟨_, by rw [r.devices], r1, ?_⟩
          have hb0 := hbytes 0 (by unfold bufferSize; omega)
          rw [Nat.add_zero] at hb0
          exact hb0
      cases hx : Nf.Bridge.learnSource { t with stp := stp } p with
      | none => simp [hx] at h
      | some y =>
        obtain ⟨tb1, dv⟩ := y
        obtain ⟨s1, h1, h2, h3⟩ := hlearn hx
        simp only [hx, Option.bind_eq_bind, Option.bind_some] at h
        simp only [h1, Option.bind_eq_bind, Option.bind_some]
        have hg := sim_get e h2 (ldMac_lt _ _) h3
        have hfw : Bridge.forward l stp s1 dv p = Nf.Bridge.forward stp tb1 dv p := by
          unfold Nf.Bridge.forward Bridge.forward
          simp only [hg, Option.bind_eq_bind, Option.bind_some]
          cases tb1.map.get (Nf.Bridge.ldMac p.data 0) <;> rfl
        rw [hfw]
        cases hf : Nf.Bridge.forward stp tb1 dv p with
        | none => simp [hf] at h
        | some outs =>
          simp only [hf, Option.bind_some, Option.some.injEq, Prod.mk.injEq] at h ⊢
          obtain ⟨rfl, rfl⟩ := h
          exact ⟨_, ⟨rfl, rfl⟩, rfl, h2, rfl⟩

/-! ### The load balancer -/

/-- The hash of a flow. -/
def flowHash (f : Flow) : Nat := hf (flowBytes f)

/-- The byte-level balancer represents the contract-level one. -/
structure MaglevSim (l : Layout) (s : Maglev.Balancer) (t : Nf.Maglev.Balancer) : Prop where
  flows : Sim FlowOk flowBytes l s.flows t.flows
  flowBackends : s.flowBackends = t.flowBackends
  backendPool : s.backendPool = t.backendPool
  cht : s.cht = t.cht

theorem pick_sim {l : Layout} {s : Maglev.Balancer} {t t' : Nf.Maglev.Balancer} (f : Fits l) (hks : l.ks = 16)
    (r : MaglevSim l s t) {fl : Flow} {kp time : Nat} (hV : FlowOk fl) (hb : bytesAt s.flows.mem kp 16 = flowBytes fl)
    {o : Option Nat} (h : Nf.Maglev.pick flowHash t fl time = some (t', o)) :
    ∃ s', Maglev.pick l s kp time = some (s', o) ∧ MaglevSim l s' t' := by
  have e : Enc FlowOk flowBytes l.ks := hks ▸ flow_enc
  have hh : hash s.flows.mem kp 16 = flowHash fl := by rw [hashOk s.flows.mem kp 16, hb]; rfl
  rw [← hks] at hb
  unfold Nf.Maglev.pick at h
  unfold Maglev.pick
  rw [hh, r.cht, r.backendPool]
  cases hf : Cht.find t.cht (flowHash fl) t.backendPool time with
  | none => simp [hf] at h
  | some b =>
    simp only [hf, Option.bind_eq_bind, Option.bind_some] at h ⊢
    cases b with
    | none =>
      simp only [Option.some.injEq, Prod.mk.injEq] at h
      obtain ⟨rfl, rfl⟩ := h
      exact ⟨s, rfl, r⟩
    | some backend =>
      simp only at h ⊢
      cases hi : t.flows.insert time fl with
      | none => simp [hi] at h
      | some y =>
        obtain ⟨tb1, o1⟩ := y
        obtain ⟨s1, h1, h2, _⟩ := sim_insert e f r.flows hV hb hi
        simp only [hi, Option.bind_some, Option.some.injEq, Prod.mk.injEq] at h
        obtain ⟨rfl, rfl⟩ := h
        simp only [h1, Option.bind_some]
        exact ⟨_, rfl, h2, r.flowBackends, rfl, rfl⟩

theorem getBackend_sim {l : Layout} {s : Maglev.Balancer} {t t' : Nf.Maglev.Balancer} (f : Fits l) (hks : l.ks = 16)
    (r : MaglevSim l s t) {fl : Flow} {kp time : Nat} (hV : FlowOk fl) (hb : bytesAt s.flows.mem kp 16 = flowBytes fl)
    {o : Option Nat} (h : Nf.Maglev.getBackend flowHash t fl time = some (t', o)) :
    ∃ s', Maglev.getBackend l s kp time = some (s', o) ∧ MaglevSim l s' t' := by
  have e : Enc FlowOk flowBytes l.ks := hks ▸ flow_enc
  have hg := sim_get e r.flows hV (hks.symm ▸ hb : bytesAt s.flows.mem kp l.ks = flowBytes fl)
  unfold Nf.Maglev.getBackend at h
  unfold Maglev.getBackend
  simp only [hg, Option.bind_eq_bind, Option.bind_some]
  cases hm : t.flows.map.get fl with
  | none =>
    rw [hm] at h
    exact pick_sim f hks r hV hb h
  | some i =>
    rw [hm] at h
    simp only [Option.bind_eq_bind] at h ⊢
    rw [r.flowBackends, r.backendPool]
    cases hbk : t.flowBackends[i]? with
    | none => simp [hbk] at h
    | some backend =>
      simp only [hbk, Option.bind_some] at h ⊢
      cases hu : used t.backendPool time backend with
      | none => simp [hu] at h
      | some alive =>
        simp only [hu, Option.bind_some] at h ⊢
        cases alive with
        | true =>
          simp only [Nf.Maglev.knownFlow, Maglev.knownFlow] at h ⊢
          cases hr : t.flows.refresh time i with
          | none => simp [hr] at h
          | some tb1 =>
            obtain ⟨s1, h1, _, h2⟩ := sim_refresh r.flows hr
            simp only [hr, Option.bind_eq_bind, Option.bind_some, Option.some.injEq, Prod.mk.injEq] at h
            obtain ⟨rfl, rfl⟩ := h
            simp only [h1, Option.bind_eq_bind, Option.bind_some]
            exact ⟨_, rfl, h2, r.flowBackends, r.backendPool, r.cht⟩
        | false =>
          simp only [Nf.Maglev.knownFlow, Maglev.knownFlow] at h ⊢
          cases hr : t.flows.drop i with
          | none => simp [hr] at h
          | some tb1 =>
            obtain ⟨s1, h1, hmem, h2⟩ := sim_drop e f r.flows hr
            simp only [hr, Option.bind_eq_bind, Option.bind_some] at h
            simp only [h1, Option.bind_eq_bind, Option.bind_some]
            refine pick_sim (t := { t with flows := tb1 }) f hks ⟨h2, ?_, ?_, ?_⟩ hV (by dsimp only; rw [hmem]; exact hb) h
            · first | rfl | exact r.flowBackends
            · first | rfl | exact r.backendPool
            · first | rfl | exact r.cht

theorem maglev_sim {l : Layout} {s : Maglev.Balancer} {t t' : Nf.Maglev.Balancer} (f : Fits l) (hks : l.ks = 16)
    (r : MaglevSim l s t) {n : Nat} {p : Packet} {o : List Out} (h : Nf.Maglev.handle flowHash n t p = some (t', o)) :
    ∃ s', Maglev.handle l n s p = some (s', o) ∧ MaglevSim l s' t' := by
  have r1 : MaglevSim l { s with flows := receive l s.flows p } t :=
    ⟨sim_receive f r.flows p, r.flowBackends, r.backendPool, r.cht⟩
  unfold Nf.Maglev.handle at h
  unfold Maglev.handle
  dsimp only at h ⊢
  cases h1 : getIpv4Header p.data (getEtherHeader p) with
  | none =>
    rw [h1] at h
    simp only [Option.some.injEq, Prod.mk.injEq] at h
    obtain ⟨rfl, rfl⟩ := h
    exact ⟨_, rfl, r1⟩
  | some ip =>
    rw [h1] at h
    dsimp only at h ⊢
    cases h2 : getTcpudpHeader p.data ip with
    | none =>
      rw [h2] at h
      simp only [Option.some.injEq, Prod.mk.injEq] at h
      obtain ⟨rfl, rfl⟩ := h
      exact ⟨_, rfl, r1⟩
    | some l4 =>
      rw [h2] at h
      dsimp only at h ⊢
      split at h
      · rename_i hd
        rw [if_pos hd]
        unfold Nf.Maglev.heartbeat at h
        unfold Maglev.heartbeat
        simp only [r.backendPool]
        cases hp : IndexPool.refresh t.backendPool p.time p.device with
        | none => simp [hp] at h
        | some pool =>
          simp only [hp, Option.bind_eq_bind, Option.bind_some, Option.some.injEq, Prod.mk.injEq] at h ⊢
          obtain ⟨rfl, rfl⟩ := h
          exact ⟨_, ⟨rfl, rfl⟩, r1.flows, r1.flowBackends, rfl, r1.cht⟩
      · rename_i hd
        rw [if_neg hd]
        cases hx : Nf.Maglev.getBackend flowHash t ⟨ld32 p.data (ip + 12), ld32 p.data (ip + 16), ld16 p.data l4,
            ld16 p.data (l4 + 2), (p.data (ip + 9)).toNat⟩ p.time with
        | none => simp [hx] at h
        | some y =>
          obtain ⟨t1, b⟩ := y
          obtain ⟨s', h3, h4⟩ := getBackend_sim (s := { s with flows := putFlow l (receive l s.flows p) (⟨ld32 p.data (ip + 12),
              ld32 p.data (ip + 16), ld16 p.data l4, ld16 p.data (l4 + 2), (p.data (ip + 9)).toNat⟩ : Flow) })
            f hks ⟨sim_putFlow f r1.flows _, r.flowBackends, r.backendPool, r.cht⟩ (header_flow_ok _ _ _ _ _ _)
            (putFlow_bytes l _ _) hx
          simp only [hx, Option.bind_eq_bind, Option.bind_some] at h
          simp only [h3, Option.bind_eq_bind, Option.bind_some]
          cases b <;> simp only [Option.some.injEq, Prod.mk.injEq] at h <;> obtain ⟨rfl, rfl⟩ := h <;> exact ⟨s', rfl, h4⟩

/-! ### Sequences -/

theorem run_sim {S T : Type} {R : S → T → Prop} {hs : S → Packet → Option (S × List Out)}
    {ht : T → Packet → Option (T × List Out)}
    (step : ∀ {s t t' p o}, R s t → ht t p = some (t', o) → ∃ s', hs s p = some (s', o) ∧ R s' t') :
    ∀ (ps : List Packet) {s : S} {t t' : T} {os : List (List Out)}, R s t → run ht t ps = some (t', os) →
      ∃ s', run hs s ps = some (s', os) ∧ R s' t' := by
  intro ps
  induction ps with
  | nil =>
    intro s t t' os r h
    simp only [run, Option.some.injEq, Prod.mk.injEq] at h
    obtain ⟨rfl, rfl⟩ := h
    exact ⟨s, rfl, r⟩
  | cons p ps ih =>
    intro s t t' os r h
    simp only [run] at h ⊢
    cases hx : ht t p with
    | none => simp [hx] at h
    | some y =>
      obtain ⟨t1, o⟩ := y
      obtain ⟨s1, h1, r1⟩ := step r hx
      simp only [hx, Option.bind_eq_bind, Option.bind_some] at h
      cases hy : run ht t1 ps with
      | none => simp [hy] at h
      | some z =>
        obtain ⟨t2, os2⟩ := z
        obtain ⟨s2, h2, r2⟩ := ih r1 hy
        simp only [hy, Option.bind_some, Option.some.injEq, Prod.mk.injEq] at h
        obtain ⟨rfl, rfl⟩ := h
        exact ⟨s2, by simp [h1, h2], r2⟩

theorem firewall_run_eq (ext : Nat) : ∀ (ps : List Packet) (tb : Table Flow),
    Nf.Firewall.run ext tb ps = run (Nf.Firewall.handle ext) tb ps := by
  intro ps
  induction ps with
  | nil => intro tb; rfl
  | cons p ps ih => intro tb; simp only [Nf.Firewall.run, run, ih]

theorem nat_run_eq (c : Nf.NatNf.Config) : ∀ (ps : List Packet) (tb : Table Flow),
    Nf.NatNf.run c tb ps = run (Nf.NatNf.handle c) tb ps := by
  intro ps
  induction ps with
  | nil => intro tb; rfl
  | cons p ps ih => intro tb; simp only [Nf.NatNf.run, run, ih]

theorem policer_run_eq (c : Nf.Policer.Config) : ∀ (ps : List Packet) (s : Nf.Policer.State),
    Nf.Policer.run c s ps = run (Nf.Policer.handle c) s ps := by
  intro ps
  induction ps with
  | nil => intro s; rfl
  | cons p ps ih => intro s; simp only [Nf.Policer.run, run, ih]

theorem bridge_run_eq : ∀ (ps : List Packet) (s : Nf.Bridge.State), Nf.Bridge.run s ps = run Nf.Bridge.handle s ps := by
  intro ps
  induction ps with
  | nil => intro s; rfl
  | cons p ps ih => intro s; simp only [Nf.Bridge.run, run, ih]

theorem maglev_run_eq (h : Flow → Nat) (n : Nat) : ∀ (ps : List Packet) (s : Nf.Maglev.Balancer),
    Nf.Maglev.run h n s ps = run (Nf.Maglev.handle h n) s ps := by
  intro ps
  induction ps with
  | nil => intro s; rfl
  | cons p ps ih => intro s; simp only [Nf.Maglev.run, run, ih]

end Verif.Nf.Low
