/- The DHCP server on bytes (Verif.Nf.LowDhcp) simulates the one on contracts (Verif.Nf.Dhcp). -/
import Verif.Nf.LowDhcp
import Verif.Nf.LowProofs
import Verif.Props.DhcpProofs
import Verif.Props.Memory

set_option autoImplicit false

namespace Verif.Nf.Low.Dhcp
open Verif.Nf.Dhcp

/-- An address of the array of clients. -/
def InKeys (l : Layout) (x : Nat) : Prop := l.keys ≤ x ∧ x < l.keys + l.ks * l.size

/-- The memories differ at most in the array of clients. -/
def Off (l : Layout) (m M : Mem) : Prop := ∀ x, ¬ InKeys l x → M x = m x

/-- The memories are the same in the array of clients. -/
def On (l : Layout) (m M : Mem) : Prop := ∀ x, InKeys l x → M x = m x

/-- Header and options are not in the array of clients. -/
def Clear (l : Layout) (m : Mem) (h : Nat) : Prop :=
  (h + 248 ≤ l.keys ∨ l.keys + l.ks * l.size ≤ h) ∧
    (options m h + 34 ≤ l.keys ∨ l.keys + l.ks * l.size ≤ options m h)

/-- Keys of 6 bytes. -/
def V (k : List UInt8) : Prop := k.length = 6

theorem enc : Enc V (fun k => k) 6 := ⟨fun _ h => h, fun _ _ _ _ h => h⟩

theorem Sim.frame {l : Layout} {s : State} {tb : Table (List UInt8)} (r : Sim V (fun k => k) l s tb) {mem : Mem}
    (h : On l s.mem mem) : Sim V (fun k => k) l { s with mem := mem } tb := by
  have hc : ∀ i < l.size, bytesAt mem (l.cell i) l.ks = bytesAt s.mem (l.cell i) l.ks := by
    intro i hi
    apply List.map_congr_left
    intro j hj
    have := List.mem_range.1 hj
    have h1 := cell_le hi
    have h2 : l.keys ≤ l.cell i := by unfold Layout.cell; omega
    exact h _ ⟨by omega, by omega⟩
  refine ⟨r.pool, r.len, r.cap, r.keysV, r.valsV, r.adrsV, r.adrsB, ?_, ?_⟩
  · intro i k hk
    have hi : i < l.size := by rw [← r.len]; exact (List.getElem?_eq_some_iff.1 hk).1
    exact (hc i hi).trans (r.cells i k hk)
  · refine rep_frame r.rep ?_
    intro k p hp
    obtain ⟨x, hx, rfl⟩ := encKV_get_some hp
    exact hc _ (r.adrsB x hx)

section
variable {l : Layout} {m M : Mem}

theorem Off.cStore (h : Off l m M) (a : Nat) (v : UInt8) : Off l (Memory.store m a v) (Memory.store M a v) := by
  intro x hx
  unfold Memory.store
  split
  · rfl
  · exact h x hx

theorem Off.cSt32 (h : Off l m M) (a v : Nat) : Off l (st32 m a v) (st32 M a v) := by
  intro x hx
  by_cases h1 : x < a ∨ a + 4 ≤ x
  · rw [st32_ne h1, st32_ne h1]; exact h x hx
  · obtain ⟨i, hi, rfl⟩ : ∃ i < 4, x = a + i := ⟨x - a, by omega, by omega⟩
    rw [st32_byte _ _ _ _ hi, st32_byte _ _ _ _ hi]

theorem Off.cSetOptions (h : Off l m M) (o : Nat) (ty : UInt8) : Off l (setOptions m o ty) (setOptions M o ty) := by
  simp only [Nf.Dhcp.setOptions]
  iterate 12 apply Off.cStore
  exact h

theorem Off.cSetValues (h : Off l m M) (s : Nf.Dhcp.Server) (o : Nat) : Off l (setValues s m o) (setValues s M o) := by
  simp only [Nf.Dhcp.setValues]
  iterate 5 apply Off.cSt32
  exact h

theorem Off.cOptions (h : Off l m M) {a : Nat} (hc : a + 248 ≤ l.keys ∨ l.keys + l.ks * l.size ≤ a) :
    options M a = options m a :=
  options_congr fun i hi => h _ fun ⟨_, _⟩ => by omega

theorem Off.cSetNack (h : Off l m M) (o : Nat) : Off l (setNack m o) (setNack M o) := (h.cStore _ _).cStore _ _

theorem Off.cCreateAck (h : Off l m M) (s : Nf.Dhcp.Server) {a : Nat} (hc : a + 248 ≤ l.keys ∨ l.keys + l.ks * l.size ≤ a)
    (ip : Nat) : Off l (createAck s m a ip) (createAck s M a ip) := by
  have h1 := (h.cStore a 2).cSt32 (a + 16) ip
  simp only [Nf.Dhcp.createAck, h1.cOptions hc]
  exact (h1.cSetOptions _ _).cSetValues _ _

theorem Off.cOffer (h : Off l m M) (s : Nf.Dhcp.Server) {a : Nat} (hc : a + 248 ≤ l.keys ∨ l.keys + l.ks * l.size ≤ a) :
    Off l (offer s m a) (offer s M a) := by
  simp only [Nf.Dhcp.offer, h.cOptions hc]
  exact ((h.cStore a 2).cSetOptions _ _).cSetValues _ _

theorem Replied.on {s : Nf.Dhcp.Server} {m' : Mem} {h ip : Nat} {ty : UInt8} (r : Replied s M m' h ip ty)
    (c : Clear l M h) : On l M m' := by
  obtain ⟨c1, c2⟩ := c
  intro x ⟨h1, h2⟩
  exact r.rest x (by omega) (by omega) (by omega)

theorem Off.cClear (h : Off l m M) {a : Nat} (c : Clear l m a) : Clear l M a := by
  unfold Clear
  rw [h.cOptions c.1]
  exact c

theorem Off.cClient (h : Off l m M) {a : Nat} (c : Clear l m a) :
    bytesAt M (options m a + 6) 6 = client m (options m a) := by
  show bytesAt M (options m a + 6) 6 = bytesAt m (options m a + 6) 6
  apply List.map_congr_left
  intro i hi
  have := List.mem_range.1 hi
  obtain ⟨_, c2⟩ := c
  exact h _ fun ⟨_, _⟩ => by omega

theorem Off.cType (h : Off l m M) {a : Nat} (c : Clear l m a) :
    M (options m a + 2) = m (options m a + 2) ∧ M a = m a := by
  obtain ⟨c1, c2⟩ := c
  exact ⟨h _ fun ⟨_, _⟩ => by omega, h _ fun ⟨_, _⟩ => by omega⟩

end

theorem copyKey_eq {l : Layout} (m : Mem) (i kp : Nat) (hks : l.ks = 6)
    (h : kp + 6 ≤ l.keys ∨ l.keys + l.ks * l.size ≤ kp) : copyKey l m i kp = assign l m i kp := by
  unfold copyKey assign
  split
  · rename_i hi
    have h1 := cell_le hi
    have h2 : l.keys ≤ l.cell i := by unfold Layout.cell; omega
    rw [hks]
    congr 1
    have h3 := (Props.C06_memory_helpers m kp (l.cell i) 6).2.2.2 (by omega)
    funext x
    unfold Low.store
    split
    · obtain ⟨j, hj, rfl⟩ : ∃ j < 6, x = l.cell i + j := ⟨x - l.cell i, by omega, by omega⟩
      rw [h3.1 j hj]
      congr 1; omega
    · exact h3.2 x (by omega)
  · rfl

theorem insert_eq {l : Layout} (s : State) (time kp : Nat) (hks : l.ks = 6)
    (h : kp + 6 ≤ l.keys ∨ l.keys + l.ks * l.size ≤ kp) : insert l s time kp = Low.insert l s time kp := by
  unfold insert Low.insert
  simp only [copyKey_eq _ _ _ hks h]
  rfl

/-- The server on bytes represents the one on contracts. -/
structure Rel (l : Layout) (s : Server) (t : Nf.Dhcp.Server) : Prop where
  statics : ∃ tb, s.statics = { t with table := tb }
  table : Sim V (fun k => k) l s.table t.table

theorem arrive_rel {l : Layout} {s : Server} {t : Nf.Dhcp.Server} (r : Rel l s t) (m : Mem) : Rel l (arrive l s m) t := by
  refine ⟨r.statics, Sim.frame r.table fun x hx => ?_⟩
  exact if_pos hx

theorem arrive_off (l : Layout) (s : Server) (m : Mem) : Off l m (arrive l s m).table.mem := fun _ hx => if_neg hx

theorem serve_sim {l : Layout} (f : Fits l) (hks : l.ks = 6) {s : Server} {t t' : Nf.Dhcp.Server} (r : Rel l s t)
    {m m' : Mem} {h time : Nat} {b : Bool} (o : Off l m s.table.mem) (c : Clear l m h) (ap : Apart m h)
    (hs : Nf.Dhcp.serve t m h time = some (t', m', b)) :
    ∃ s', serve l s h time = some (s', b) ∧ Rel l s' t' ∧ Off l m' s'.table.mem := by
  obtain ⟨⟨tb0, hst⟩, r⟩ := r
  have eo := o.cOptions c.1
  have et := o.cType c
  have eb := o.cClient c
  have cM := o.cClear c
  have apM : Apart s.table.mem h := by unfold Apart; rw [eo]; exact ap
  have hV : V (client m (options m h)) := by simp [V, client, bytesAt]
  have e6 : Enc V (fun k : List UInt8 => k) l.ks := by rw [hks]; exact enc
  have hget : get s.table (options m h + 6) = some (t.table.map.get (client m (options m h))) :=
    sim_get e6 r hV (by rw [hks]; exact eb)
  have hD : isDiscover s.table.mem h = isDiscover m h := by simp only [isDiscover, eo, et.1, et.2]
  have hR : isRequest s.table.mem h = isRequest m h := by simp only [isRequest, eo, et.1, et.2]
  have hips : s.statics.ips = t.ips := by rw [hst]
  have hoff : ∀ mm a, offer s.statics mm a = offer t mm a := by rw [hst]; intro _ _; rfl
  have hack : ∀ mm a ip, createAck s.statics mm a ip = createAck t mm a ip := by rw [hst]; intro _ _ _; rfl
  unfold Nf.Dhcp.serve at hs
  unfold serve
  rw [hD, hR]
  have mk : ∀ (u : State) (tb : Table (List UInt8)) (ip : Nat), Sim V (fun k => k) l u tb → Off l m u.mem →
      Rel l (put s u (offer s.statics (st32 u.mem (h + 16) ip) h)) { t with table := tb } ∧
      Off l (offer t (st32 m (h + 16) ip) h) (put s u (offer s.statics (st32 u.mem (h + 16) ip) h)).table.mem := by
    intro u tb ip hu ou
    refine ⟨⟨⟨tb0, hst⟩, Sim.frame hu ?_⟩, ?_⟩
    · have apU : Apart u.mem h := by unfold Apart; rw [ou.cOptions c.1]; exact ap
      exact Replied.on (offer_spec s.statics u.mem h ip apU) (ou.cClear c)
    · show Off l _ (offer s.statics (st32 u.mem (h + 16) ip) h)
      rw [hoff]
      exact (ou.cSt32 _ _).cOffer _ c.1
  by_cases hd : isDiscover m h = true
  · rw [if_pos hd] at hs ⊢
    unfold Nf.Dhcp.discover at hs
    unfold discover
    simp only [eo, hget, Option.bind_eq_bind, Option.bind_some]
    cases hg : t.table.map.get (client m (options m h)) with
    | some index =>
      simp only [hg, Option.bind_eq_bind, Option.bind_eq_some_iff, Option.some.injEq, Prod.mk.injEq] at hs
      obtain ⟨tb, h1, ip, h2, rfl, rfl, rfl⟩ := hs
      obtain ⟨u, k1, k2, k3⟩ := sim_refresh r h1
      obtain ⟨a1, a2⟩ := mk u tb ip k3 (by rw [k2]; exact o)
      exact ⟨_, by simp [k1, reply, hips, h2], a1, a2⟩
    | none =>
      simp only [hg, Option.bind_eq_bind, Option.bind_eq_some_iff] at hs
      obtain ⟨⟨tb, ix⟩, h1, h2⟩ := hs
      obtain ⟨u, k1, k2, k3⟩ := sim_insert e6 f r hV (kp := options m h + 6) (by rw [hks]; exact eb) h1
      have hins : insert l s.table time (options m h + 6) = some (u, ix) := by
        rw [insert_eq _ _ _ hks (by obtain ⟨_, c2⟩ := c; omega)]; exact k1
      have ou : Off l m u.mem := by
        intro x hx
        have := k3 x 1 (by unfold InKeys at hx; omega)
        simp only [bytesAt, List.range_one, List.map_cons, List.map_nil, Nat.add_zero, List.cons.injEq, and_true] at this
        rw [this]; exact o x hx
      cases ix with
      | none =>
        simp only [Option.some.injEq, Prod.mk.injEq] at h2
        obtain ⟨rfl, rfl, rfl⟩ := h2
        exact ⟨{ s with table := u }, by simp [hins], ⟨⟨tb0, hst⟩, k2⟩, ou⟩
      | some index =>
        simp only [Option.bind_eq_some_iff, Option.some.injEq, Prod.mk.injEq] at h2
        obtain ⟨ip, h2, rfl, rfl, rfl⟩ := h2
        obtain ⟨a1, a2⟩ := mk u tb ip k2 ou
        exact ⟨_, by simp [hins, reply, hips, h2], a1, a2⟩
  · rw [if_neg hd] at hs ⊢
    by_cases hr : isRequest m h = true
    · rw [if_pos hr] at hs ⊢
      unfold Nf.Dhcp.request at hs
      unfold request
      have el : ld32 s.table.mem (options m h + 14) = ld32 m (options m h + 14) :=
        ld32_congr fun i hi => o _ fun ⟨_, _⟩ => by obtain ⟨_, c2⟩ := c; omega
      simp only [eo, hget, el, Option.bind_eq_bind, Option.bind_some]
      cases hg : t.table.map.get (client m (options m h)) with
      | none =>
        simp only [hg, Option.some.injEq, Prod.mk.injEq] at hs
        obtain ⟨rfl, rfl, rfl⟩ := hs
        exact ⟨s, rfl, ⟨⟨tb0, hst⟩, r⟩, o⟩
      | some index =>
        simp only [hg, Option.bind_eq_bind, Option.bind_eq_some_iff] at hs
        obtain ⟨ip, h2, hs⟩ := hs
        by_cases he : ip = ld32 m (options m h + 14)
        · simp only [if_pos he, Option.bind_eq_some_iff, Option.some.injEq, Prod.mk.injEq] at hs
          obtain ⟨tb, h1, rfl, rfl, rfl⟩ := hs
          obtain ⟨u, k1, k2, k3⟩ := sim_refresh r h1
          refine ⟨put s u (createAck s.statics u.mem h ip), ?_, ⟨⟨tb0, hst⟩, Sim.frame k3 ?_⟩, ?_⟩
          · simp only [hips, h2, Option.bind_some, if_pos he, k1]
          · rw [k2]
            exact Replied.on (createAck_spec s.statics s.table.mem h ip apM) cM
          · show Off l _ (createAck s.statics u.mem h ip)
            rw [hack, k2]
            exact o.cCreateAck _ c.1 _
        · simp only [if_neg he, Option.some.injEq, Prod.mk.injEq] at hs
          obtain ⟨rfl, rfl, rfl⟩ := hs
          refine ⟨put s s.table (setNack s.table.mem (options m h)), ?_, ⟨⟨tb0, hst⟩, Sim.frame r ?_⟩, ?_⟩
          · simp only [hips, h2, Option.bind_some, if_neg he]
          · intro x ⟨h3, h4⟩
            obtain ⟨_, c2⟩ := c
            unfold setNack
            rw [store_ne (by omega), store_ne (by omega)]
          · exact o.cSetNack _
    · rw [if_neg hr] at hs ⊢
      simp only [Option.some.injEq, Prod.mk.injEq] at hs
      obtain ⟨rfl, rfl, rfl⟩ := hs
      exact ⟨s, rfl, ⟨⟨tb0, hst⟩, r⟩, o⟩

theorem run_sim {l : Layout} (f : Fits l) (hks : l.ks = 6) : ∀ (msgs : List (Mem × Nat × Nat)) {s : Server} {t t' : Nf.Dhcp.Server}
    {rs : List (Mem × Bool)}, Rel l s t → (∀ x ∈ msgs, Clear l x.1 x.2.1 ∧ Apart x.1 x.2.1) →
    Nf.Dhcp.run t msgs = some (t', rs) →
    ∃ s' rs', run l s msgs = some (s', rs') ∧ List.Forall₂ (fun y y' => y'.2 = y.2 ∧ Off l y.1 y'.1) rs rs' := by
  intro msgs
  induction msgs with
  | nil =>
    intro s t t' rs r _ h
    simp only [Nf.Dhcp.run, Option.some.injEq, Prod.mk.injEq] at h
    obtain ⟨rfl, rfl⟩ := h
    exact ⟨s, [], rfl, .nil⟩
  | cons x rest ih =>
    obtain ⟨m, h, time⟩ := x
    intro s t t' rs r hm hrun
    simp only [Nf.Dhcp.run, Option.bind_eq_bind, Option.bind_eq_some_iff, Option.some.injEq, Prod.mk.injEq] at hrun
    obtain ⟨⟨t1, m', b⟩, h1, ⟨t2, rs2⟩, h2, rfl, rfl⟩ := hrun
    obtain ⟨hc, ha⟩ := hm _ (List.mem_cons_self)
    obtain ⟨s1, g1, g2, g3⟩ := serve_sim f hks (arrive_rel r m) (arrive_off l s m) hc ha h1
    obtain ⟨s2, rs', g4, g5⟩ := ih g2 (fun y hy => hm y (List.mem_cons_of_mem _ hy)) h2
    exact ⟨s2, (s1.table.mem, b) :: rs', by simp [run, g1, g4], .cons ⟨rfl, g3⟩ g5⟩

end Verif.Nf.Low.Dhcp
