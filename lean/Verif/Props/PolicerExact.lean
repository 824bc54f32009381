/- Property C59: the policer lets through exactly what a token bucket for each address allows. -/
import Verif.Spec.TokenBucket
import Verif.Props.Policer

set_option autoImplicit false

namespace Verif.Props
open Verif.Nf (Packet Table Out)
open Verif.Nf.Policer (Config State Bucket)
open Verif.PacketSpec (isIpv4 dword)
open Verif.IndexPoolSpec (timeMax)

namespace PolicerSpec
open Verif.TokenBucket

/-- The required outputs: IPv4 packets from the WAN that may pass, and all other IPv4 packets, go unmodified to the other device. -/
def outputs (q : Params) (wan : Nat) : Buckets → List Packet → List (List Out)
  | _, [] => []
  | s, p :: ps =>
    if isIpv4 p then
      if p.device = wan then
        let r := police q s p.time p.length (dword p 30)
        (if r.2 then [Out.transmit p (1 - p.device) false] else []) :: outputs q wan r.1 ps
      else [Out.transmit p (1 - p.device) false] :: outputs q wan s ps
    else [] :: outputs q wan s ps

def params (c : Config) (size : Nat) : Params := ⟨size, 1000000000 * c.burst / c.rate, c.rate, c.burst⟩

/-- When each bucket was last used. -/
def times (s : Buckets) : GMap Nat Nat := s.map fun x => (x.1, x.2.2)

theorem times_live (q : Params) (now : Nat) (s : Buckets) : times (live q now s) = Expiring.live q.expiration now (times s) := by
  unfold times live Expiring.live
  rw [List.filter_map]
  rfl

theorem times_get (s : Buckets) (k : Nat) : (times s).get k = (s.get k).map Prod.snd := by
  induction s with
  | nil => rfl
  | cons x s ih =>
    obtain ⟨k', v⟩ := x
    by_cases h : k' = k
    · simp [times, GMap.get, h]
    · simp only [times, GMap.get, List.map_cons, h, if_false] at ih ⊢
      exact ih

theorem times_set (s : Buckets) (k : Nat) (v : Nat × Nat) : times (s.set k v) = (times s).set k v.2 := by
  induction s with
  | nil => rfl
  | cons x s ih =>
    obtain ⟨k', w⟩ := x
    by_cases h : k' = k
    · simp only [times, GMap.set, List.map_cons, h, if_true] at ih ⊢
      exact ih
    · simp only [times, GMap.set, List.map_cons, h, if_false] at ih ⊢
      rw [ih]

theorem times_keys (s : Buckets) : (times s).map Prod.fst = s.map Prod.fst := by
  simp [times]

theorem live_get {q : Params} {now : Nat} {s : Buckets} (hd : s.Distinct) (k : Nat) :
    (live q now s).get k = (s.get k).filter fun b => Expiring.fresh q.expiration now b.2 := by
  unfold live
  induction s with
  | nil => rfl
  | cons x s ih =>
    obtain ⟨k', v⟩ := x
    simp only [GMap.Distinct, List.map_cons, List.nodup_cons] at hd
    have ih := ih hd.2
    by_cases hk : k' = k
    · subst hk
      cases hp : Expiring.fresh q.expiration now v.2 with
      | true => simp [hp, GMap.get, Option.filter]
      | false =>
        have : GMap.get s k' = none := (GMap.get_eq_none_iff s k').2 hd.1
        simp only [hp, Bool.false_eq_true, not_false_eq_true, List.filter_cons_of_neg, GMap.get, ↓reduceIte, Option.filter]
        rw [ih, this]
        rfl
    · cases hp : Expiring.fresh q.expiration now v.2 with
      | true => simp [hp, GMap.get, hk, ih]
      | false => simp [hp, GMap.get, hk, ih]

/-- The policer's state represents the buckets from time `now` on. -/
structure Represents (c : Config) (q : Params) (now : Nat) (st : State) (s : Buckets) : Prop where
  inv : PolInv c q.capacity q.expiration now st
  rel : Nf.Rel q.capacity q.expiration now st.table (times s)
  buckets : ∀ a sz t, (live q now s).get a = some (sz, t) → ∃ i, Nf.look st.table a = some (i, t) ∧ st.buckets[i]? = some ⟨sz, t⟩

theorem Represents.dist {c : Config} {q : Params} {now : Nat} {st : State} {s : Buckets} (h : Represents c q now st s) : s.Distinct := by
  have := h.rel.dist
  unfold GMap.Distinct at this ⊢
  rwa [times_keys] at this

theorem distinct_live {q : Params} {now : Nat} {s : Buckets} (hd : s.Distinct) : (live q now s).Distinct := by
  unfold GMap.Distinct at *
  exact List.Nodup.sublist (List.Sublist.map _ List.filter_sublist) hd

theorem Represents.later {c : Config} {q : Params} {now now' : Nat} {st : State} {s : Buckets} (h : Represents c q now st s) (hn : now ≤ now') : Represents c q now' st s := by
  refine ⟨⟨h.inv.inv, h.inv.blen, h.inv.bound, fun a i t' hl => ⟨(h.inv.times a i t' hl).1.trans hn, (h.inv.times a i t' hl).2⟩⟩, h.rel.later hn, fun a sz t hg => h.buckets a sz t ?_⟩
  rw [live_get h.dist] at hg ⊢
  obtain ⟨h1, h2⟩ := Option.filter_eq_some_iff.1 hg
  exact Option.filter_eq_some_iff.2 ⟨h1, Nf.fresh_anti hn h2⟩

theorem refill_available {c : Config} {q : Params} (hr : q.rate = c.rate) (hb : q.burst = c.burst) (hc : 2 * c.burst ≤ 2 ^ 64) {sz t0 t : Nat} (hs : sz ≤ c.burst) (ht : t0 ≤ t)
    (hm : t < timeMax) : Nf.Policer.refill c ⟨sz, t0⟩ t = available q (sz, t0) t := by
  have htm : timeMax = 2 ^ 64 - 1 := rfl
  have hd : (2 ^ 64 + t - t0) % 2 ^ 64 = t - t0 := by omega
  unfold Nf.Policer.refill available
  simp only [hd, hr, hb]
  split
  · rename_i hlt
    have h1 : (t - t0) * c.rate < c.burst := by
      have h2 : (t - t0 + 1) * c.rate ≤ c.burst / c.rate * c.rate := Nat.mul_le_mul_right _ hlt
      have h3 := Nat.div_mul_le_self c.burst c.rate
      have h4 : 0 < c.rate := by
        rcases Nat.eq_zero_or_pos c.rate with h | h
        · rw [h] at hlt; simp at hlt
        · exact h
      rw [Nat.add_mul] at h2
      omega
    rw [Nat.mod_eq_of_lt (by omega : (t - t0) * c.rate < 2 ^ 64), Nat.mod_eq_of_lt (by omega)]
    split <;> omega
  · rfl

/-- One packet from the WAN. -/
theorem police_exact {c : Config} {q : Params} (hr : q.rate = c.rate) (hb : q.burst = c.burst) (hc : 2 * c.burst ≤ 2 ^ 64) (he : c.burst / c.rate ≤ q.expiration) {now t len addr : Nat} {st : State} {s : Buckets}
    (h : Represents c q now st s) (hn : now ≤ t) (ht : t < timeMax) (hlen : len < c.burst) :
    ∃ st', Nf.Policer.police c st t len addr = some (st', (police q s t len addr).2) ∧ Represents c q t st' (police q s t len addr).1 := by
  have h := h.later hn
  obtain ⟨st', ok, hp, hinv, -⟩ := police_step h.inv (len := len) (addr := addr) le_rfl ht
  have hlive : Expiring.live q.expiration t (times s) = times (live q t s) := (times_live q t s).symm
  have hlenl : (Expiring.live q.expiration t (times s)).length = (live q t s).length := by rw [hlive]; simp [times]
  have hget : ∀ a, Nf.liveLook q.expiration t st.table a = ((live q t s).get a).map Prod.snd := fun a => by rw [← h.rel.same, hlive, times_get]
  -- the buckets of the other addresses
  have hother : ∀ (st' : State) (v : Nat × Nat) (i : Nat), Nf.look st'.table addr = some (i, t) → st'.buckets[i]? = some ⟨v.1, t⟩ → v.2 = t →
      (∀ a j u, a ≠ addr → Nf.look st.table a = some (j, u) → Expiring.fresh q.expiration t u = true → Nf.look st'.table a = some (j, u) ∧ st'.buckets[j]? = st.buckets[j]?) →
      ∀ a sz u, (live q t ((live q t s).set addr v)).get a = some (sz, u) → ∃ i, Nf.look st'.table a = some (i, u) ∧ st'.buckets[i]? = some ⟨sz, u⟩ := by
    intro st' v i h1 h2 h3 h4 a sz u ha
    rw [live_get (GMap.distinct_set (distinct_live h.dist) _ _), GMap.get_set] at ha
    obtain ⟨ha1, ha2⟩ := Option.filter_eq_some_iff.1 ha
    by_cases hk : addr = a
    · subst hk
      rw [if_pos rfl, Option.some.injEq] at ha1
      subst ha1
      simp only at h3
      subst h3
      exact ⟨i, h1, h2⟩
    · rw [if_neg hk] at ha1
      obtain ⟨j, g1, g2⟩ := h.buckets a sz u ha1
      obtain ⟨g3, g4⟩ := h4 a j u (Ne.symm hk) g1 ha2
      exact ⟨j, g3, by rw [g4, g2]⟩
  cases hl : (live q t s).get addr with
  | some b =>
    obtain ⟨sz, t0⟩ := b
    obtain ⟨i, hi1, hi2⟩ := h.buckets addr sz t0 hl
    have hmap := (Nf.look_some h.inv.inv hi1).1
    obtain ⟨tb', k1, k2, k3⟩ := Nf.refresh_learn h.rel ht hmap
    have hmem : Expiring.mem q.expiration t (times s) addr = true := by rw [Nf.mem_eq h.rel, hget, hl]; rfl
    rw [Expiring.learn, if_pos (.inl hmem), Expiring.touch, hlive] at k2
    have hib : i < st.buckets.length := by rw [h.inv.blen]; exact (Nf.look_key h.inv.inv hi1).2
    have hrf := refill_available hr hb hc (sz := sz) (t0 := t0) (t := t) (h.inv.bound ⟨sz, t0⟩ (List.mem_of_getElem? hi2)) ((h.inv.times _ _ _ hi1).1) ht
    have key : ∀ sz', Represents c q t st' ((live q t s).set addr (sz', t)) ∨ st' ≠ ⟨tb', st.buckets.set i ⟨sz', t⟩⟩ := by
      intro sz'
      by_cases hst : st' = ⟨tb', st.buckets.set i ⟨sz', t⟩⟩
      · left
        refine ⟨hinv, ?_, ?_⟩
        · rw [times_set, hst]; exact k2
        · subst hst
          refine hother _ (sz', t) i (by simp only [k3, if_true]) (by simp [List.getElem?_set_self hib]) rfl ?_
          intro a j u ha hla _
          have hij : i ≠ j := by rintro rfl; exact ha (Nf.look_inj h.inv.inv hla hi1)
          exact ⟨by simp only [k3, if_neg ha]; exact hla, by simp [hij]⟩
      · exact .inr hst
    simp only [Nf.Policer.police, hmap, Nf.Policer.known, k1, hi2, Option.bind_eq_bind, Option.bind_some, hrf] at hp ⊢
    simp only [police, hl]
    by_cases hlt : len < available q (sz, t0) t
    · simp only [gt_iff_lt, hlt, if_true, Option.some.injEq, Prod.mk.injEq] at hp ⊢
      obtain ⟨hp1, hp2⟩ := hp
      exact ⟨st', ⟨hp1, trivial⟩, (key _).resolve_right fun hx => hx hp1.symm⟩
    · simp only [gt_iff_lt, hlt, if_false, Option.some.injEq, Prod.mk.injEq] at hp ⊢
      obtain ⟨hp1, hp2⟩ := hp
      exact ⟨st', ⟨hp1, trivial⟩, (key _).resolve_right fun hx => hx hp1.symm⟩
  | none =>
    have hdead : Nf.liveLook q.expiration t st.table addr = none := by rw [hget, hl]; rfl
    have hmem : Expiring.mem q.expiration t (times s) addr = false := by rw [Nf.mem_eq h.rel, hdead]; rfl
    cases hmap : st.table.map.get addr with
    | some i =>
      -- the address has expired but is still in the map
      obtain ⟨t0, -, hlook⟩ := Nf.look_of_get h.inv.inv hmap
      have hold : Expiring.fresh q.expiration t t0 = false := by
        cases hf : Expiring.fresh q.expiration t t0 with
        | false => rfl
        | true =>
          have := Nf.liveLook_some.2 ⟨i, hlook, hf⟩
          rw [hdead] at this
          simp at this
      have hroom : (live q t s).length < q.capacity := by
        rw [← hlenl]
        refine Nf.room_of_some h.rel (Nf.look_key h.inv.inv hlook).2 fun k' v hk' => ?_
        have := Nf.look_inj h.inv.inv hk' hlook
        subst this
        rw [hlook] at hk'
        simp only [Option.some.injEq, Prod.mk.injEq, true_and] at hk'
        rw [← hk']
        exact hold
      obtain ⟨tb', k1, k2, k3⟩ := Nf.refresh_learn h.rel ht hmap
      rw [Expiring.learn, if_pos (.inr (by rw [hlenl]; exact hroom)), Expiring.touch, hlive] at k2
      obtain ⟨-, b, hb1, hb2⟩ := h.inv.times _ _ _ hlook
      have hib : i < st.buckets.length := by rw [h.inv.blen]; exact (Nf.look_key h.inv.inv hlook).2
      have hfull : Nf.Policer.refill c b t = c.burst := by
        have htm : timeMax = 2 ^ 64 - 1 := rfl
        have ht0 := (h.inv.times _ _ _ hlook).1
        simp only [Expiring.fresh, decide_eq_false_iff_not] at hold
        unfold Nf.Policer.refill
        rw [show (2 ^ 64 + t - b.time) % 2 ^ 64 = t - b.time by omega]
        exact if_neg (by omega)
      simp only [Nf.Policer.police, hmap, Nf.Policer.known, k1, hb1, Option.bind_eq_bind, Option.bind_some, hfull, gt_iff_lt, hlen, if_true, Option.some.injEq, Prod.mk.injEq] at hp ⊢
      obtain ⟨hp1, hp2⟩ := hp
      rw [show police q s t len addr = ((live q t s).set addr (q.burst - len, t), true) by
        simp only [police, hl]
        rw [if_pos ⟨by omega, hroom⟩]]
      refine ⟨st', ⟨hp1, rfl⟩, hinv, ?_, ?_⟩
      · rw [times_set, ← hp1]; exact k2
      · subst hp1
        refine hother _ (q.burst - len, t) i (by simp only [k3, if_true]) (by simp [List.getElem?_set_self hib, hb]) rfl ?_
        intro a j u ha hla _
        have hij : i ≠ j := by rintro rfl; exact ha (Nf.look_inj h.inv.inv hla hlook)
        exact ⟨by simp only [k3, if_neg ha]; exact hla, by simp [hij]⟩
    | none =>
      obtain ⟨tb', o, k1, k2, k3, k4, k5, -, k6⟩ := Nf.insert_learn h.rel ht hmap
      simp only [hmem, Bool.false_eq_true, false_or, hlenl] at k3
      simp only [Nf.Policer.police, hmap, Nf.Policer.unknown, gt_iff_lt, Nat.not_lt.2 hlen.le, if_false, k1, Option.bind_eq_bind, Option.bind_some] at hp ⊢
      by_cases hroom : (live q t s).length < q.capacity
      · rw [decide_eq_true hroom, Option.isSome_iff_exists] at k3
        obtain ⟨i, rfl⟩ := k3
        obtain ⟨g1, g2, g3⟩ := k4 i rfl
        rw [Expiring.learn, if_pos (.inr (by rw [hlenl]; exact hroom)), Expiring.touch, hlive] at k2
        have hib : i < st.buckets.length := by rw [h.inv.blen]; exact g2
        simp only [hib, if_true, Option.some.injEq, Prod.mk.injEq] at hp ⊢
        obtain ⟨hp1, hp2⟩ := hp
        rw [show police q s t len addr = ((live q t s).set addr (q.burst - len, t), true) by
          simp only [police, hl]
          rw [if_pos ⟨by omega, hroom⟩]]
        refine ⟨st', ⟨hp1, rfl⟩, hinv, ?_, ?_⟩
        · rw [times_set, ← hp1]; exact k2
        · subst hp1
          refine hother _ (q.burst - len, t) i g1 (by simp [List.getElem?_set_self hib, hb]) rfl ?_
          intro a j u ha hla hf
          have hij : i ≠ j := by
            rintro rfl
            rw [g3 a u hla] at hf
            simp at hf
          exact ⟨k6 a j u hla hf, by simp [hij]⟩
      · rw [decide_eq_false hroom] at k3
        have ho : o = none := by simpa using k3
        subst ho
        rw [Expiring.learn, if_neg (by rw [hmem, hlenl]; simpa using hroom), hlive] at k2
        simp only [Option.some.injEq, Prod.mk.injEq] at hp ⊢
        obtain ⟨hp1, hp2⟩ := hp
        rw [show police q s t len addr = (live q t s, false) by
          simp only [police, hl]
          rw [if_neg (fun hx => hroom hx.2)]]
        refine ⟨st', ⟨hp1, rfl⟩, hinv, ?_, ?_⟩
        · rw [← hp1]; exact k2
        · intro a sz u ha
          rw [live_get (distinct_live h.dist)] at ha
          obtain ⟨ha1, ha2⟩ := Option.filter_eq_some_iff.1 ha
          obtain ⟨j, e1, e2⟩ := h.buckets a sz u ha1
          subst hp1
          exact ⟨j, k6 a j u e1 ha2, e2⟩

end PolicerSpec
open PolicerSpec

/-- C59 where every packet from the WAN is shorter than the burst, and 1000000000 times the burst fits into 64 bits: for every rate, burst, table size and packet sequence with
non-decreasing times on the two devices, the policer violates no precondition of the data structures and lets through exactly what a token bucket for each address allows, unmodified and to the other device.
What is missing: packets as long as the burst or longer, and larger bursts, for which it is false, see `C59_expired_denied`, `C59_expired_refreshed` and `C59_tokens_wrap`. -/
theorem C59_token_bucket_partial (c : Config) (size : Nat) (hr : 0 < c.rate) (hb : 0 < c.burst) (hc : 1000000000 * c.burst < 2 ^ 64) (ps : List Packet) (hm : MonoFrom 0 ps)
    (hp : ∀ p ∈ ps, p.time < timeMax ∧ p.device < 2) (hl : ∀ p ∈ ps, p.device = c.wanDevice → p.length < c.burst) :
    ∃ s0 s, Nf.Policer.init c size = some s0 ∧ Nf.Policer.run c s0 ps = some (s, outputs (params c size) c.wanDevice [] ps) := by
  obtain ⟨tb, h1, h2, h3⟩ := Nf.inv_alloc 0 size (1000000000 * c.burst % 2 ^ 64 / c.rate)
  have hinit : Nf.Policer.init c size = some ⟨tb, List.replicate size ⟨0, 0⟩⟩ := by
    unfold Nf.Policer.init
    rw [if_neg (by omega), h1]
    rfl
  obtain ⟨hinv, -, -⟩ := policer_init hinit
  have hrel := Nf.rel_alloc size (1000000000 * c.burst % 2 ^ 64 / c.rate) 0
  obtain ⟨tb', g1, g2⟩ := hrel
  rw [h1, Option.some.injEq] at g1
  subst g1
  rw [Nat.mod_eq_of_lt hc] at hinv g2
  have he : c.burst / c.rate ≤ (params c size).expiration := Nat.div_le_div_right (by omega)
  have key : ∀ (ps : List Packet) (now : Nat) (st : State) (s : TokenBucket.Buckets), Represents c (params c size) now st s → MonoFrom now ps →
      (∀ p ∈ ps, p.time < timeMax ∧ p.device < 2) → (∀ p ∈ ps, p.device = c.wanDevice → p.length < c.burst) →
      ∃ st', Nf.Policer.run c st ps = some (st', outputs (params c size) c.wanDevice s ps) := by
    intro ps
    induction ps with
    | nil => intro now st s _ _ _ _; exact ⟨st, rfl⟩
    | cons p ps ih =>
      intro now st s h hm hp hl
      have hd := (hp p (by simp)).2
      have step : ∃ st' o s', Nf.Policer.handle c st p = some (st', o) ∧ Represents c (params c size) p.time st' s' ∧
          outputs (params c size) c.wanDevice s (p :: ps) = o :: outputs (params c size) c.wanDevice s' ps := by
        simp only [Nf.Policer.handle, Nf.getIpv4Header_eq, outputs]
        by_cases hip : isIpv4 p
        · simp only [hip, ↓reduceIte]
          by_cases hw : p.device = c.wanDevice
          · obtain ⟨st', a1, a2⟩ := police_exact (q := params c size) rfl rfl (by omega) he h (addr := dword p 30) hm.1 (hp p (by simp)).1 (hl p (by simp) hw)
            simp only [if_pos hw, Nf.ld32_dword, show 14 + 16 = 30 from rfl, a1, Option.bind_eq_bind, Option.bind_some, other_device hd]
            cases hok : (TokenBucket.police (params c size) s p.time p.length (dword p 30)).2 with
            | true => exact ⟨st', _, _, rfl, a2, rfl⟩
            | false => exact ⟨st', _, _, rfl, a2, rfl⟩
          · simp only [if_neg hw, other_device hd]
            exact ⟨st, _, s, rfl, h.later hm.1, rfl⟩
        · simp only [hip, ↓reduceIte]
          exact ⟨st, _, s, rfl, h.later hm.1, rfl⟩
      obtain ⟨st1, o, s1, a1, a2, a3⟩ := step
      obtain ⟨st2, b1⟩ := ih p.time st1 s1 a2 hm.2 (fun q hq => hp q (by simp [hq])) (fun q hq => hl q (by simp [hq]))
      exact ⟨st2, by simp [Nf.Policer.run, a1, b1, a3]⟩
  obtain ⟨s, hs⟩ := key ps 0 _ [] ⟨hinv, g2, by simp [TokenBucket.live, GMap.get]⟩ hm hp hl
  exact ⟨_, s, hinit, hs⟩

/-- How many packets the policer sends for each packet, from its initial state. -/
def policedCounts (c : Config) (size : Nat) (ps : List Packet) : Option (List Nat) :=
  (Nf.Policer.init c size).bind fun s => (Nf.Policer.run c s ps).map fun r => r.2.map List.length

/-- A case of `C59_token_bucket_partial`: a packet beyond the budget is dropped, a later one passes, another address has no room until the first has expired. -/
example : (∀ p ∈ [wanPacket 1 6 0, wanPacket 1 5 0, wanPacket 1 5 1, wanPacket 2 5 1, wanPacket 2 5 5000000002], p.device = (⟨1, 2, 10⟩ : Config).wanDevice → p.length < (⟨1, 2, 10⟩ : Config).burst) ∧
    MonoFrom 0 [wanPacket 1 6 0, wanPacket 1 5 0, wanPacket 1 5 1, wanPacket 2 5 1, wanPacket 2 5 5000000002] ∧
    (outputs (params ⟨1, 2, 10⟩ 1) 1 [] [wanPacket 1 6 0, wanPacket 1 5 0, wanPacket 1 5 1, wanPacket 2 5 1, wanPacket 2 5 5000000002]).map List.length = [1, 0, 1, 0, 1] := by
  refine ⟨by simp [wanPacket], by simp [MonoFrom, wanPacket], by decide⟩

/-- C59 is false for a packet as long as the burst to an address that has expired but was not evicted: it is dropped, though the first packet of a flow may be as long as the burst. -/
theorem C59_expired_denied : policedCounts ⟨1, 1000000000, 10⟩ 1 [wanPacket 1 1 0, wanPacket 1 10 20] = some [1, 0] ∧
    (outputs (params ⟨1, 1000000000, 10⟩ 1) 1 [] [wanPacket 1 1 0, wanPacket 1 10 20]).map List.length = [1, 1] := by
  decide

/-- C59 is false for a packet longer than the burst to an address that has expired but was not evicted: it is dropped, but the address is taken to be in use again, and a new flow finds no room. -/
theorem C59_expired_refreshed : policedCounts ⟨1, 1000000000, 10⟩ 1 [wanPacket 1 1 0, wanPacket 1 11 20, wanPacket 2 1 21] = some [1, 0, 0] ∧
    (outputs (params ⟨1, 1000000000, 10⟩ 1) 1 [] [wanPacket 1 1 0, wanPacket 1 11 20, wanPacket 2 1 21]).map List.length = [1, 0, 1] := by
  decide

/-- C59 is false for very large bursts: the tokens wrap around, and a full bucket becomes an empty one. -/
theorem C59_tokens_wrap : policedCounts ⟨1, 1, 2 ^ 64 - 1⟩ 1 [wanPacket 1 1 0, wanPacket 1 1 2] = some [1, 0] ∧
    (outputs (params ⟨1, 1, 2 ^ 64 - 1⟩ 1) 1 [] [wanPacket 1 1 0, wanPacket 1 1 2]).map List.length = [1, 1] := by
  decide

end Verif.Props
