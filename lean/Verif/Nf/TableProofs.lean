/- Facts about the expiring table used by the network functions. -/
import Verif.Nf.Table
import Verif.Env.IndexPoolProofs
import Verif.Base

set_option autoImplicit false

namespace Verif.Nf
open Verif.IndexPool Verif.IndexPoolSpec

variable {K : Type} [DecidableEq K]

/-- Last-use time of an index. -/
def stamp (p : Pool) (i : Nat) : Option Nat :=
  (p.timestamps[i]?).bind (fun t => if t = TIME_MAX then none else some t)

/-- Key → (index, last-use time). -/
def look (tb : Table K) (k : K) : Option (Nat × Nat) :=
  (tb.map.values.get k).bind fun i => (stamp tb.pool i).map fun t => (i, t)

/-- Well-formedness of a table. -/
structure Inv (size exp : Nat) (tb : Table K) : Prop where
  psize : tb.pool.size = size
  pexp : tb.pool.exp = exp
  plen : tb.pool.timestamps.length = size
  plbi : tb.pool.lastBorrowed ≤ size
  klen : tb.keys.length = size
  cap : tb.map.cap = size
  addrs : tb.map.addrs = tb.map.values
  distinct : tb.map.values.Distinct
  link : ∀ k i, tb.map.values.get k = some i ↔ stamp tb.pool i ≠ none ∧ tb.keys[i]? = some k

theorem inv_alloc (zero : K) (size exp : Nat) :
    ∃ tb, Table.alloc zero size exp = some tb ∧ Inv size exp tb ∧ ∀ k, look tb k = none := by
  obtain ⟨p, hp, r⟩ := alloc_rep size exp
  refine ⟨⟨List.replicate size zero, CMap.alloc size, p⟩,
    by simp only [Table.alloc, hp, Option.bind_eq_bind, Option.bind_some], ?_, ?_⟩
  · refine ⟨r.size_eq, r.exp_eq, r.len, r.lbi, by simp, rfl, rfl, GMap.distinct_nil, ?_⟩
    intro k i
    have := (r.get i).symm
    simp only [GMap.get] at this
    simp [CMap.alloc, GMap.get, stamp, this]
  · intro k; simp [look, CMap.alloc, GMap.get]

theorem stamp_lt {size exp : Nat} {tb : Table K} (inv : Inv size exp tb) {i : Nat} (h : stamp tb.pool i ≠ none) :
    i < size := by
  by_contra hk
  apply h
  rw [stamp, List.getElem?_eq_none (by rw [inv.plen]; omega)]; rfl

theorem values_stamp {size exp : Nat} {tb : Table K} (inv : Inv size exp tb) {k : K} {i : Nat}
    (h : tb.map.values.get k = some i) : ∃ t, stamp tb.pool i = some t := by
  have := ((inv.link k i).1 h).1
  exact Option.ne_none_iff_exists'.1 this

theorem look_of_get {size exp : Nat} {tb : Table K} (inv : Inv size exp tb) {k : K} {i : Nat}
    (h : tb.map.get k = some i) : ∃ t, stamp tb.pool i = some t ∧ look tb k = some (i, t) := by
  obtain ⟨t, ht⟩ := values_stamp inv h
  exact ⟨t, ht, by simp only [look, show tb.map.values.get k = some i from h, Option.bind_some, ht, Option.map_some]⟩

theorem look_none_of_get {tb : Table K} {k : K} (h : tb.map.get k = none) : look tb k = none := by
  simp only [look, show tb.map.values.get k = none from h, Option.bind_none]

theorem look_some {size exp : Nat} {tb : Table K} (_ : Inv size exp tb) {k : K} {i t : Nat}
    (h : look tb k = some (i, t)) : tb.map.get k = some i ∧ stamp tb.pool i = some t := by
  simp only [look, Option.bind_eq_some_iff, Option.map_eq_some_iff] at h
  obtain ⟨j, h1, u, h2, h3⟩ := h
  cases h3
  exact ⟨h1, h2⟩

theorem get_none_of_look {size exp : Nat} {tb : Table K} (inv : Inv size exp tb) {k : K}
    (h : look tb k = none) : tb.map.get k = none := by
  cases hg : tb.map.get k with
  | none => rfl
  | some i => obtain ⟨t, _, h2⟩ := look_of_get inv hg; rw [h] at h2; cases h2

theorem look_key {size exp : Nat} {tb : Table K} (inv : Inv size exp tb) {k : K} {i t : Nat}
    (h : look tb k = some (i, t)) : tb.keys[i]? = some k ∧ i < size := by
  obtain ⟨h1, h2⟩ := look_some inv h
  exact ⟨((inv.link k i).1 h1).2, stamp_lt inv (by rw [h2]; simp)⟩

/-- Distinct keys have distinct indices. -/
theorem look_inj {size exp : Nat} {tb : Table K} (inv : Inv size exp tb) {k k' : K} {i t t' : Nat}
    (h : look tb k = some (i, t)) (h' : look tb k' = some (i, t')) : k = k' := by
  have h1 := (look_key inv h).1
  have h2 := (look_key inv h').1
  rw [h1] at h2; cases h2; rfl

/-- Every index in use has an owner, the key stored in its cell. -/
theorem owner {size exp : Nat} {tb : Table K} (inv : Inv size exp tb) {i t : Nat} (h : stamp tb.pool i = some t) :
    ∃ k, tb.keys[i]? = some k ∧ look tb k = some (i, t) := by
  have hi := stamp_lt inv (i := i) (by rw [h]; simp)
  have hk : tb.keys[i]? = some (tb.keys[i]'(by rw [inv.klen]; omega)) := List.getElem?_eq_getElem _
  have := (inv.link _ i).2 ⟨by rw [h]; simp, hk⟩
  refine ⟨_, hk, ?_⟩
  simp only [look, this, Option.bind_some, h, Option.map_some]

theorem used_eq {size exp : Nat} {tb : Table K} (inv : Inv size exp tb) (time i : Nat) :
    used tb.pool time i = some (match stamp tb.pool i with | none => false | some v => young time exp v) := by
  by_cases hi : i < size
  · have hl : i < tb.pool.timestamps.length := by rw [inv.plen]; exact hi
    have hg : tb.pool.timestamps[i]? = some tb.pool.timestamps[i] := List.getElem?_eq_getElem hl
    have hs : ¬ i ≥ tb.pool.size := by rw [inv.psize]; omega
    simp only [used, hs, ↓reduceIte, stamp, hg, Option.bind_eq_bind, Option.bind_some]
    by_cases h1 : tb.pool.timestamps[i] = TIME_MAX
    · simp [h1]
    · simp only [h1, ↓reduceIte, inv.pexp]
      by_cases h2 : time ≥ exp ∧ time - exp > tb.pool.timestamps[i]
      · have : young time exp tb.pool.timestamps[i] = false := (young_false_iff _ _ _).2 h2
        rw [if_pos h2, this]
      · have : young time exp tb.pool.timestamps[i] = true := by
          cases hy : young time exp tb.pool.timestamps[i] with
          | true => rfl
          | false => exact absurd ((young_false_iff _ _ _).1 hy) h2
        rw [if_neg h2, this]
  · have : stamp tb.pool i = none := by
      by_contra h; exact hi (stamp_lt inv h)
    rw [this]
    have hs : i ≥ tb.pool.size := by rw [inv.psize]; omega
    simp [used, hs]

theorem stamp_set (p : Pool) {i t : Nat} (l : Nat) (hi : i < p.timestamps.length) (ht : t ≠ TIME_MAX) (j : Nat) :
    stamp { p with timestamps := p.timestamps.set i t, lastBorrowed := l } j = if j = i then some t else stamp p j := by
  simp only [stamp, List.getElem?_set]
  by_cases h : i = j
  · subst h; simp [hi, ht]
  · simp [h, Ne.symm h]

/-- Refreshing the index of a key. -/
theorem refresh_spec {size exp : Nat} {tb : Table K} (inv : Inv size exp tb) {k : K} {i t0 : Nat}
    (h : look tb k = some (i, t0)) {t : Nat} (ht : t < timeMax) :
    ∃ tb', tb.refresh t i = some tb' ∧ Inv size exp tb' ∧ tb'.keys = tb.keys ∧ tb'.map = tb.map ∧
      ∀ k', look tb' k' = if k' = k then some (i, t) else look tb k' := by
  obtain ⟨h1, h2⟩ := look_some inv h
  have hi := (look_key inv h).2
  have hl : i < tb.pool.timestamps.length := by rw [inv.plen]; exact hi
  have htm : t ≠ TIME_MAX := by rw [← timeMax_eq]; omega
  have hst := stamp_set tb.pool tb.pool.lastBorrowed hl htm
  refine ⟨{ tb with pool := { tb.pool with timestamps := tb.pool.timestamps.set i t } }, ?_, ?_, rfl, rfl, ?_⟩
  · simp only [Table.refresh, IndexPool.refresh, hl, ↓reduceIte, Option.bind_eq_bind, Option.bind_some]
  · refine ⟨inv.psize, inv.pexp, by simpa using inv.plen, inv.plbi, inv.klen, inv.cap, inv.addrs, inv.distinct, ?_⟩
    intro k' j
    have e := hst j
    rw [show stamp ({ tb.pool with timestamps := tb.pool.timestamps.set i t }) j = _ from e]
    rw [inv.link k' j]
    by_cases hj : j = i
    · subst hj; simp [h2]
    · simp [hj]
  · intro k'
    by_cases hk : k' = k
    · subst hk
      simp only [look, show tb.map.values.get k' = some i from h1, Option.bind_some, ↓reduceIte]
      rw [show stamp ({ tb.pool with timestamps := tb.pool.timestamps.set i t }) i = _ from hst i]
      simp
    · rw [if_neg hk]
      simp only [look]
      cases hg : tb.map.values.get k' with
      | none => rfl
      | some j =>
        simp only [Option.bind_some]
        rw [show stamp ({ tb.pool with timestamps := tb.pool.timestamps.set i t }) j = _ from hst j]
        by_cases hj : j = i
        · subst hj
          exfalso
          apply hk
          have a := ((inv.link k' j).1 hg).2
          have b := ((inv.link k j).1 h1).2
          rw [a] at b; cases b; rfl
        · simp [hj]

theorem values_length_lt {size exp : Nat} {tb : Table K} (inv : Inv size exp tb) {i : Nat} (hi : i < size)
    (h : ∀ k, tb.map.values.get k ≠ some i) : tb.map.values.length < size := by
  have hnd : (i :: tb.map.values.map Prod.snd).Nodup := by
    rw [List.nodup_cons]
    constructor
    · intro hm
      obtain ⟨⟨k, j⟩, hx, rfl⟩ := List.mem_map.1 hm
      exact h k (GMap.mem_get inv.distinct hx)
    · have hd := inv.distinct
      unfold GMap.Distinct at hd
      have hvn : tb.map.values.Nodup := List.Nodup.of_map _ hd
      apply List.Nodup.map_on _ hvn
      rintro ⟨k, j⟩ hx ⟨k', j'⟩ hy (he : j = j')
      subst he
      have a := ((inv.link k j).1 (GMap.mem_get inv.distinct hx)).2
      have b := ((inv.link k' j).1 (GMap.mem_get inv.distinct hy)).2
      rw [a] at b; cases b; rfl
  have hsub : (i :: tb.map.values.map Prod.snd) ⊆ List.range size := by
    intro j hj
    rcases List.mem_cons.1 hj with rfl | hj
    · exact List.mem_range.2 hi
    · obtain ⟨⟨k, j⟩, hx, rfl⟩ := List.mem_map.1 hj
      exact List.mem_range.2 (stamp_lt inv ((inv.link k j).1 (GMap.mem_get inv.distinct hx)).1)
  have := (List.subperm_of_subset hnd hsub).length_le
  simp at this
  omega

/-- Inserting a key that is not in the table: either every index has an owner in
use and nothing changes, or the key gets an index that no key had, or whose owner's
use had expired, in which case that owner is dropped. -/
theorem insert_spec {size exp : Nat} {tb : Table K} (inv : Inv size exp tb) {k : K}
    (hk : look tb k = none) {t : Nat} (ht : t < timeMax) :
    ∃ tb' r, tb.insert t k = some (tb', r) ∧ Inv size exp tb' ∧
      ((r = none ∧ (∀ k', look tb' k' = look tb k') ∧
          ∀ i < size, ∃ k' v, look tb k' = some (i, v) ∧ young t exp v = true) ∨
       (∃ i, r = some i ∧ i < size ∧
          (∀ k' v, look tb k' = some (i, v) → young t exp v = false) ∧
          look tb' k = some (i, t) ∧
          ∀ k', k' ≠ k → look tb' k' = (look tb k').filter (fun x => decide (x.1 ≠ i)))) := by
  have hkg : tb.map.values.get k = none := get_none_of_look inv hk
  have htm : t ≠ TIME_MAX := by rw [← timeMax_eq]; omega
  rcases borrow_spec (p := tb.pool) t (by rw [inv.psize]; exact inv.plbi) (by rw [inv.plen, inv.psize]) with
    ⟨i, u, hb, hi, t0, hts, hav⟩ | ⟨hb, hbusy⟩
  · rw [inv.psize] at hi
    have hl : i < tb.pool.timestamps.length := by rw [inv.plen]; exact hi
    have hst := stamp_set tb.pool i hl htm
    have hkl : i < tb.keys.length := by rw [inv.klen]; exact hi
    have hko : tb.keys[i]? = some tb.keys[i] := List.getElem?_eq_getElem _
    -- the map after the optional removal
    obtain ⟨map, hmap, hcap, haddr, hdist, hget⟩ : ∃ map : CMap K,
        Table.dropOld ⟨tb.keys, tb.map, take tb.pool t i⟩ i u = some map ∧
        map.cap = size ∧ map.addrs = map.values ∧ map.values.Distinct ∧
        ∀ k', map.values.get k' = if tb.map.values.get k' = some i then none else tb.map.values.get k' := by
      rcases hav with ⟨h1, rfl⟩ | ⟨h1, h2, h3, rfl⟩
      · refine ⟨tb.map, rfl, inv.cap, inv.addrs, inv.distinct, ?_⟩
        intro k'
        rw [if_neg]
        intro hc
        have := ((inv.link k' i).1 hc).1
        apply this; simp [stamp, hts, h1]
      · have hsi : stamp tb.pool i ≠ none := by simp [stamp, hts, h1]
        have hv : tb.map.values.get tb.keys[i] = some i := (inv.link _ i).2 ⟨hsi, hko⟩
        refine ⟨{ tb.map with values := tb.map.values.remove tb.keys[i], addrs := tb.map.addrs.remove tb.keys[i] },
          ?_, inv.cap, by simp only [inv.addrs], GMap.distinct_remove inv.distinct _, ?_⟩
        · simp only [Table.dropOld, hko, Option.bind_eq_bind, Option.bind_some, CMap.remove, inv.addrs, hv]
          simp
        · intro k'
          simp only [GMap.get_remove]
          by_cases he : tb.keys[i] = k'
          · subst he; simp [hv]
          · rw [if_neg he]
            rw [if_neg]
            intro hc
            have := ((inv.link k' i).1 hc).2
            rw [hko] at this; cases this; exact he rfl
    have hnone : ∀ k', map.values.get k' ≠ some i := by
      intro k'
      rw [hget k']
      split
      · simp
      · assumption
    have hmk : map.values.get k = none := by rw [hget k, hkg]; simp
    set tb1 : Table K := { keys := tb.keys.set i k, map := map, pool := take tb.pool t i } with htb1
    have hwrite : Table.writeKey { keys := tb.keys, map := map, pool := take tb.pool t i } i k = some tb1 := by
      simp only [Table.writeKey, hkl, true_and]
      rw [if_pos]
      intro x hx
      obtain ⟨k', j⟩ := x
      rw [haddr] at hx
      intro he
      simp only at he; subst he
      exact hnone k' (GMap.mem_get hdist hx)
    have hlen : map.values.length < size := by
      have hd := hdist
      have hnd : (i :: map.values.map Prod.snd).Nodup := by
        rw [List.nodup_cons]
        constructor
        · intro hm
          obtain ⟨⟨k', j⟩, hx, rfl⟩ := List.mem_map.1 hm
          exact hnone k' (GMap.mem_get hdist hx)
        · unfold GMap.Distinct at hd
          apply List.Nodup.map_on _ (List.Nodup.of_map _ hd)
          rintro ⟨k1, j⟩ hx ⟨k2, j'⟩ hy (he : j = j')
          subst he
          have a := GMap.mem_get hdist hx
          have b := GMap.mem_get hdist hy
          rw [hget] at a b
          split at a
          · cases a
          · split at b
            · cases b
            · have a' := ((inv.link k1 j).1 a).2
              have b' := ((inv.link k2 j).1 b).2
              rw [a'] at b'; cases b'; rfl
      have hsub : (i :: map.values.map Prod.snd) ⊆ List.range size := by
        intro j hj
        rcases List.mem_cons.1 hj with rfl | hj
        · exact List.mem_range.2 hi
        · obtain ⟨⟨k', j⟩, hx, rfl⟩ := List.mem_map.1 hj
          have a := GMap.mem_get hdist hx
          rw [hget] at a
          split at a
          · cases a
          · exact List.mem_range.2 (stamp_lt inv ((inv.link k' j).1 a).1)
      have := (List.subperm_of_subset hnd hsub).length_le
      simp at this
      omega
    set map' : CMap K := { map with values := map.values.set k i, addrs := map.addrs.set k i } with hmap'
    have hset : tb1.map.set k i i = some map' := by
      simp only [CMap.set, htb1, hcap, hlen, hmk, haddr, true_and, ↓reduceIte, hmap']
    have hgetm : ∀ k', map'.values.get k' = if k' = k then some i else map.values.get k' := by
      intro k'
      simp only [hmap', GMap.get_set]
      by_cases h : k = k'
      · subst h; simp
      · simp [h, Ne.symm h]
    have hstamp : ∀ j, stamp (take tb.pool t i) j = if j = i then some t else stamp tb.pool j := hst
    refine ⟨{ tb1 with map := map' }, some i, ?_, ?_, .inr ⟨i, rfl, hi, ?_, ?_, ?_⟩⟩
    · simp only [Table.insert, hb, Option.bind_eq_bind, Option.bind_some]
      rw [hmap]
      simp only [Option.bind_some]
      rw [hwrite]
      simp only [Option.bind_some]
      rw [hset]
      rfl
    · refine ⟨inv.psize, inv.pexp, by simp [htb1, take, inv.plen], by simp [htb1, take]; omega,
        by simp [htb1, inv.klen], hcap, by simp [hmap', haddr], GMap.distinct_set hdist _ _, ?_⟩
      intro k' j
      simp only [htb1]
      rw [hgetm, hstamp, List.getElem?_set]
      by_cases hkk : k' = k
      · subst hkk
        simp only [↓reduceIte]
        by_cases hj : j = i
        · subst hj; simp [hkl]
        · have : i ≠ j := Ne.symm hj
          simp only [hj, ↓reduceIte, Option.some.injEq, this, false_iff, not_and]
          intro hs hkj
          have := (inv.link k' j).2 ⟨hs, hkj⟩
          rw [hkg] at this; cases this
      · simp only [hkk, ↓reduceIte]
        by_cases hj : j = i
        · subst hj
          simp only [↓reduceIte, hkl]
          constructor
          · intro h; exact absurd h (hnone k')
          · rintro ⟨_, h⟩; cases h; exact absurd rfl hkk
        · have : i ≠ j := Ne.symm hj
          simp only [hj, ↓reduceIte, this]
          rw [hget, ← inv.link k' j]
          split
          · rename_i h1; rw [h1]; simp [this]
          · rfl
    · intro k' v hl'
      obtain ⟨h1, h2⟩ := look_some inv hl'
      rcases hav with ⟨h3, _⟩ | ⟨h3, h4, h5, _⟩
      · simp [stamp, hts, h3] at h2
      · simp [stamp, hts, h3] at h2
        subst h2
        rw [young_false_iff, ← inv.pexp]
        exact ⟨h4, h5⟩
    · simp only [look, hgetm, ↓reduceIte, Option.bind_some, htb1, hstamp, Option.map_some]
    · intro k' hkk
      simp only [look, hgetm, hkk, ↓reduceIte, htb1]
      rw [hget]
      by_cases h1 : tb.map.values.get k' = some i
      · obtain ⟨v, hv⟩ := values_stamp inv h1
        simp [h1, hv, Option.filter]
      · rw [if_neg h1]
        cases hg : tb.map.values.get k' with
        | none => rfl
        | some j =>
          have hj : j ≠ i := by rintro rfl; exact h1 hg
          simp only [Option.bind_some, hstamp, hj, ↓reduceIte]
          obtain ⟨v, hv⟩ := values_stamp inv hg
          simp [hv, Option.filter, hj]
  · refine ⟨tb, none, ?_, inv, .inl ⟨rfl, fun _ => rfl, ?_⟩⟩
    · simp only [Table.insert, hb, Option.bind_eq_bind, Option.bind_some]
    · intro i hi
      obtain ⟨t0, h1, h2, h3⟩ := hbusy i (by rw [inv.psize]; exact hi)
      have hs : stamp tb.pool i = some t0 := by simp [stamp, h1, h2]
      obtain ⟨k', _, h4⟩ := owner inv hs
      refine ⟨k', t0, h4, ?_⟩
      cases hy : young t exp t0 with
      | true => rfl
      | false => rw [inv.pexp] at h3; exact absurd ((young_false_iff _ _ _).1 hy) h3

/-- Dropping the index of a key. -/
theorem drop_spec {size exp : Nat} {tb : Table K} (inv : Inv size exp tb) {k : K} {i t0 : Nat}
    (h : look tb k = some (i, t0)) :
    ∃ tb', tb.drop i = some tb' ∧ Inv size exp tb' ∧
      ∀ k', look tb' k' = if k' = k then none else look tb k' := by
  obtain ⟨h1, h2⟩ := look_some inv h
  obtain ⟨hk, hi⟩ := look_key inv h
  have h1' : tb.map.values.get k = some i := h1
  have hl : i < tb.pool.timestamps.length := by rw [inv.plen]; exact hi
  set p' : Pool := { tb.pool with timestamps := tb.pool.timestamps.set i TIME_MAX } with hp'
  have hst : ∀ j, stamp p' j = if j = i then none else stamp tb.pool j := by
    intro j
    simp only [stamp, hp', List.getElem?_set]
    by_cases hj : i = j
    · subst hj; simp [hl]
    · simp [hj, Ne.symm hj]
  refine ⟨⟨tb.keys, { tb.map with values := tb.map.values.remove k, addrs := tb.map.addrs.remove k }, p'⟩, ?_, ?_, ?_⟩
  · simp only [Table.drop, hk, Option.bind_eq_bind, Option.bind_some, CMap.remove, inv.addrs, h1', giveBack, hl]
    simp [hp']
  · refine ⟨inv.psize, inv.pexp, by simpa [hp'] using inv.plen, inv.plbi, inv.klen, inv.cap, by simp [inv.addrs],
      GMap.distinct_remove inv.distinct _, ?_⟩
    intro k' j
    simp only [GMap.get_remove]
    rw [hst]
    by_cases hj : j = i
    · subst hj
      simp only [↓reduceIte, ne_eq, not_true_eq_false, false_and, iff_false]
      split
      · simp
      · rename_i hne
        intro hc
        have a := ((inv.link k' j).1 hc).2
        rw [hk] at a; cases a; exact hne rfl
    · simp only [hj, ↓reduceIte]
      rw [← inv.link k' j]
      split
      · rename_i he; subst he; rw [h1']; simp [Ne.symm hj]
      · rfl
  · intro k'
    simp only [look, GMap.get_remove]
    by_cases he : k' = k
    · subst he; simp
    · simp only [he, ↓reduceIte, Ne.symm he]
      cases hg : tb.map.values.get k' with
      | none => rfl
      | some j =>
        simp only [Option.bind_some]
        rw [hst, if_neg]
        rintro rfl
        have a := ((inv.link k' j).1 hg).2
        rw [hk] at a; cases a; exact he rfl

end Verif.Nf
