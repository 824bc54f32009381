/-
C33-C36: the symbolic models of the data structures against their contracts and
against the C implementations.
-/
import Verif.Tool.Structs
import Verif.Env.IndexPoolProofs
import Verif.Env.HashMapProofs
import Verif.Env.ChtProofs
import Verif.Props.Maglev

set_option autoImplicit false

namespace Verif.Props
open Verif.Tool (sub64 mul64)
open Verif.Tool

/-! ### C33: index pool -/

theorem young_model {t exp v : Nat} (ht : t < 2 ^ 64) : PoolModel.young t exp v = IndexPoolSpec.young t exp v := by
  simp only [PoolModel.young, IndexPoolSpec.young, sub64]
  by_cases h : t < exp
  · simp [h]
  · have h1 : t + 2 ^ 64 - exp = t - exp + 2 ^ 64 := by omega
    have h2 : (t - exp) % 2 ^ 64 = t - exp := Nat.mod_eq_of_lt (a := t - exp) (b := 2 ^ 64) (by omega)
    simp only [h1, Nat.add_mod_right, h2]

/-- Every answer the index_pool.h contract allows is an outcome of the symbolic model, with the
same items afterwards; and every outcome of the model is allowed by the contract. -/
theorem C33_model_is_contract {size exp : Nat} (hs : size < 2 ^ 64) (items : GMap Nat Nat)
    (c : IndexPoolSpec.Call) (hc : ∀ t, c = .borrow t ∨ (∃ i, c = .used t i) → t < 2 ^ 64)
    (a : IndexPoolSpec.Answer) (items' : GMap Nat Nat) :
    PoolModel.outcome size exp items c a items' ↔ IndexPoolSpec.Post size exp items c a items' := by
  cases c with
  | borrow t =>
    have ht := hc t (.inl rfl)
    have hy : (fun (_ : Nat) v => PoolModel.young t exp v) = fun _ v => IndexPoolSpec.young t exp v := by
      funext _ v; exact young_model ht
    cases a with
    | borrowed i u =>
      simp only [PoolModel.outcome, PoolModel.borrow, IndexPoolSpec.Post, hy]
      simp only [young_model ht]
      constructor
      · rintro ⟨result, used, ⟨h1, h2, h3, h4, h5⟩, h6, h7⟩
        rw [if_pos h6] at h5
        obtain ⟨h8, h9, h10⟩ := h5
        refine ⟨fun hl => ?_, h10, h8, ?_⟩
        · rw [if_pos hl] at h4
          split at h4
          · exact absurd h4 h6
          · rename_i hf
            exact ⟨by simpa using hf, h7.2 h4.2⟩
        · cases u with
          | true => rw [if_pos (h7.1 rfl)] at h9; simpa using h9
          | false =>
            have : ¬ used ≠ 0 := fun h => by simpa using h7.2 h
            rw [if_neg this] at h9; simpa using h9
      · rintro ⟨h1, h2, h3, h4⟩
        refine ⟨1, if u then 1 else 0, ⟨by omega, by split <;> omega, by omega, ?_, ?_⟩, by omega, by cases u <;> simp⟩
        · split
          · rename_i hl
            obtain ⟨h5, h6⟩ := h1 hl
            simp [h5, h6]
          · omega
        · refine (if_pos (by omega)).mpr ⟨h3, ?_, h2⟩
          cases u <;> simpa using h4
    | notBorrowed =>
      simp only [PoolModel.outcome, PoolModel.borrow, IndexPoolSpec.Post, hy]
      constructor
      · rintro ⟨index, used, h1, h2, h3, h4, h5⟩
        by_cases hl : items.length = size
        · rw [if_pos hl] at h4
          split at h4
          · rename_i hf; exact ⟨hl, hf, by simpa using h5⟩
          · exact absurd rfl h4.1
        · rw [if_neg hl] at h4; exact absurd rfl h4
      · rintro ⟨h1, h2, h3⟩
        exact ⟨0, 0, by omega, by omega, by omega, by simp [h1, h2], by simpa using h3⟩
    | bool b => simp [PoolModel.outcome, IndexPoolSpec.Post]
    | unit => simp [PoolModel.outcome, IndexPoolSpec.Post]
  | refresh t i => cases a <;> simp [PoolModel.outcome, IndexPoolSpec.Post, PoolModel.refresh]
  | used t i =>
    have ht := hc t (.inr ⟨i, rfl⟩)
    cases a with
    | bool b =>
      simp only [PoolModel.outcome, IndexPoolSpec.Post, PoolModel.used]
      refine and_congr_right fun _ => ?_
      cases hg : items.get i with
      | none => cases b <;> simp
      | some v =>
        simp only [young_model ht]
        cases hv : IndexPoolSpec.young t exp v <;> cases b <;> simp
    | _ => simp [PoolModel.outcome, IndexPoolSpec.Post]
  | giveBack i => cases a <;> simp [PoolModel.outcome, IndexPoolSpec.Post, PoolModel.giveBack]

example : PoolModel.outcome 2 10 [(0, 5), (1, 100)] (.borrow 50) (.borrowed 0 true) [(1, 100), (0, 50)] ∧
    PoolModel.outcome 2 10 [(0, 45), (1, 100)] (.borrow 50) .notBorrowed [(0, 45), (1, 100)] := by
  constructor
  · refine (C33_model_is_contract (by omega) _ _ ?_ _ _).2 ?_
    · rintro t (h | ⟨i, h⟩) <;> cases h; omega
    · exact ⟨fun _ => ⟨rfl, rfl⟩, rfl, by omega, ⟨5, rfl, rfl⟩⟩
  · refine (C33_model_is_contract (by omega) _ _ ?_ _ _).2 ?_
    · rintro t (h | ⟨i, h⟩) <;> cases h; omega
    · exact ⟨rfl, rfl, rfl⟩

/-- What the C implementation does on a pool with contents `items` is an outcome of the symbolic
model, with the contents updated the same way. -/
theorem C33_real_pool_covered {size exp : Nat} {p : IndexPool.Pool} {items : GMap Nat Nat}
    (rep : IndexPool.Rep size exp p items) (hs : size < 2 ^ 64) (op : IndexPool.Op)
    (ht : ∀ t, (IndexPool.callOf op = .borrow t ∨ ∃ i, IndexPool.callOf op = .used t i) → t < 2 ^ 64)
    (hpre : IndexPoolSpec.Pre size (IndexPool.callOf op)) :
    ∃ p' r items', IndexPool.step p op = some (p', r) ∧ IndexPool.Rep size exp p' items' ∧
      PoolModel.outcome size exp items (IndexPool.callOf op) (IndexPool.answerOf r) items' := by
  obtain ⟨p', r, items', h1, h2, h3⟩ := IndexPool.step_refines rep op hpre
  exact ⟨p', r, items', h1, h2, (C33_model_is_contract hs _ _ (fun t h => ht t h) _ _).2 h3⟩

/-- A borrow, refresh or return that violates the contract is reported: what the model accepts
meets the precondition. -/
theorem C33_violations_reported {size : Nat} (c : IndexPoolSpec.Call)
    (hw : ∀ t, c = .borrow t ∨ (∃ i, c = .refresh t i) → t < 2 ^ 64) :
    PoolModel.ok size c ↔ IndexPoolSpec.Pre size c := by
  cases c with
  | borrow t => have := hw t (.inl rfl); simp only [PoolModel.ok, IndexPoolSpec.Pre, IndexPoolSpec.timeMax]; omega
  | refresh t i => have := hw t (.inr ⟨i, rfl⟩); simp only [PoolModel.ok, IndexPoolSpec.Pre, IndexPoolSpec.timeMax]; omega
  | used t i => rfl
  | giveBack i => rfl

example : ¬ PoolModel.ok 4 (.giveBack 4) ∧ PoolModel.ok 4 (.giveBack 3) ∧ ¬ PoolModel.ok 4 (.borrow (2 ^ 64 - 1)) := by
  refine ⟨by simp [PoolModel.ok], by simp [PoolModel.ok], by simp [PoolModel.ok]⟩

/-- The check of index_pool_alloc never reports anything, because the product is computed modulo
2^64: sizes whose timestamps do not fit in memory are accepted. -/
theorem C33_alloc_check_vacuous : (∀ size, PoolModel.allocOk size = true) ∧
    ∃ size < 2 ^ 64, ¬ size * 8 ≤ 2 ^ 64 - 1 ∧ PoolModel.allocOk size = true := by
  have h : ∀ size, PoolModel.allocOk size = true := by
    intro size
    have := Nat.mod_lt (size * 64) (show 2 ^ 64 > 0 by decide)
    exact decide_eq_true (Nat.le_sub_one_of_lt this)
  exact ⟨h, 2 ^ 62, by omega, by omega, h _⟩

/-! ### C36: consistent hash table -/

/-- Provided no borrowed backend has expired, the answer of the C implementation (on a table of
height coprime to all smaller shifts, as C07) is an outcome of the model. -/
theorem C36_covered_if_none_expired_partial {h cap size exp : Nat} {c : Cht.Cht} {p : IndexPool.Pool} {items : GMap Nat Nat}
    (hcap : cap < h) (hh : h < 40000) (hs : ∀ s, 1 ≤ s → s ≤ cap → Nat.Coprime h s) (hc : Cht.alloc h cap = some c)
    (rep : IndexPool.Rep size exp p items) (hash time : Nat)
    (young : ∀ b v, b < cap → items.get b = some v → IndexPoolSpec.young time exp v = true) :
    ∃ r, Cht.find c hash p time = some r ∧ ChtModel.find cap items r := by
  obtain ⟨c', hc', hch, hcc, hrows⟩ := Cht.alloc_spec hcap hh (coprime_of_small hcap hs)
  rw [hc] at hc'; cases hc'
  obtain ⟨row, hperm, hrow⟩ := hrows (hash % h) (Nat.mod_lt _ (by omega))
  have hlen : row.length = cap := by simpa using hperm.length_eq
  have hf := Cht.findLoop_spec c p time (hash % h * cap) cap row
    (fun x => match items.get x with | none => false | some v => IndexPoolSpec.young time exp v) hrow hlen
    (fun x => used_rep rep time x) cap 0 (by omega)
  refine ⟨row.find? (fun x => match items.get x with | none => false | some v => IndexPoolSpec.young time exp v),
    by simpa [Cht.find, Cht.loop, hch, hcc] using hf, ?_⟩
  have hd : GMap.Distinct items := rep.distinct
  cases hr : row.find? (fun x => match items.get x with | none => false | some v => IndexPoolSpec.young time exp v) with
  | none =>
    rw [ChtModel.find, GMap.forallB_iff hd]
    intro k v hk
    by_cases hkc : k < cap
    · have := List.find?_eq_none.1 hr k (hperm.mem_iff.2 (List.mem_range.2 hkc))
      simp [hk, young k v hkc hk] at this
    · simp; omega
  | some b =>
    have hb : b < cap := List.mem_range.1 (hperm.mem_iff.1 (List.mem_of_find?_eq_some hr))
    have hy := List.find?_some hr
    have hp : items.get b ≠ none := by
      intro hn; simp [hn] at hy
    refine ⟨?_, by omega, hb, hp⟩
    rw [Bool.eq_false_iff]
    intro hall
    rw [GMap.forallB_iff hd] at hall
    obtain ⟨v, hv⟩ := Option.ne_none_iff_exists'.1 hp
    have := hall b v hv
    simp at this; omega

example : ∃ c, Cht.alloc 5 2 = some c ∧ ∃ p, (IndexPool.alloc 2 10).bind (IndexPool.step · (.borrow 5)) = some (p, .borrowed 0 false) ∧
    Cht.find c 7 p 6 = some (some 0) := ⟨_, rfl, _, rfl, rfl⟩

/-- With an expired backend the model misses the real answer: the C code answers false, but the
model only has outcomes where a backend is found. -/
theorem C36_expired_backends_not_covered : ∃ c p, Cht.alloc 3 1 = some c ∧
    (IndexPool.alloc 1 10).bind (IndexPool.step · (.borrow 5)) = some (p, .borrowed 0 false) ∧
    IndexPool.Rep 1 10 p [(0, 5)] ∧ Cht.find c 0 p 100 = some none ∧ ¬ ChtModel.find 1 [(0, 5)] none := by
  refine ⟨_, ⟨[5], 1, 10, 0⟩, rfl, by decide, ⟨rfl, rfl, rfl, by decide, by simp [GMap.Distinct], ?_⟩, by decide, by simp [ChtModel.find, GMap.forallB]⟩
  rintro (_ | k) <;> simp [GMap.get, IndexPool.TIME_MAX]

/-! ### C35: longest prefix match -/

/-- The routes of a table of the model. -/
def routesOf (t : LpmModel.Table) : LpmSpec.Table := t.map fun x => ⟨x.1.1, x.1.2, x.2⟩

theorem matchesItem_iff {key : Nat} {r : LpmSpec.Route} (h : r.length ≤ 32) :
    LpmModel.matchesItem key (r.dest, r.length) = true ↔ LpmSpec.matchesIp r key := by
  have h1 : sub64 32 r.length = 32 - r.length := by
    have : 32 + 2 ^ 64 - r.length = 32 - r.length + 2 ^ 64 := by omega
    rw [sub64, this, Nat.add_mod_right]
    exact Nat.mod_eq_of_lt (a := 32 - r.length) (b := 2 ^ 64) (by omega)
  simp [LpmModel.matchesItem, LpmSpec.matchesIp, h1]

theorem mem_routesOf {t : LpmModel.Table} (hd : GMap.Distinct t) (r : LpmSpec.Route) :
    r ∈ routesOf t ↔ t.get (r.dest, r.length) = some r.device := by
  constructor
  · intro h
    obtain ⟨⟨⟨k, w⟩, v⟩, hx, rfl⟩ := List.mem_map.1 h
    exact GMap.mem_get hd hx
  · intro h
    exact List.mem_map.2 ⟨_, GMap.get_some_mem h, rfl⟩

/-- The model answers false exactly when no prefix matches, as a longest-prefix-match search. -/
theorem C35_no_route (t : LpmModel.Table) (hd : GMap.Distinct t) (hw : ∀ r ∈ routesOf t, r.length ≤ 32) (key : Nat) :
    LpmModel.search t key none ↔ ∀ r ∈ routesOf t, ¬ LpmSpec.matchesIp r key := by
  rw [LpmModel.search, GMap.forallB_iff hd]
  constructor
  · intro h r hr hm
    have := h _ _ ((mem_routesOf hd r).1 hr)
    rw [(matchesItem_iff (hw r hr)).2 hm] at this
    simp at this
  · rintro h ⟨k, w⟩ v hk
    have hr := (mem_routesOf hd ⟨k, w, v⟩).2 hk
    cases hm : LpmModel.matchesItem key (k, w) with
    | false => rfl
    | true => exact absurd ((matchesItem_iff (r := ⟨k, w, v⟩) (hw _ hr)).1 hm) (h _ hr)

theorem exists_best {t : LpmSpec.Table} {ip : Nat} {r0 : LpmSpec.Route} (h : r0 ∈ t) (hm : LpmSpec.matchesIp r0 ip) :
    ∃ r, LpmSpec.best t ip r := by
  induction t generalizing r0 with
  | nil => simp at h
  | cons x l ih =>
    by_cases hl : ∃ r ∈ l, LpmSpec.matchesIp r ip
    · obtain ⟨r1, h1, h2⟩ := hl
      obtain ⟨r, h3, h4, h5⟩ := ih h1 h2
      by_cases hx : LpmSpec.matchesIp x ip ∧ r.length < x.length
      · refine ⟨x, List.mem_cons_self, hx.1, fun r' hr' hm' => ?_⟩
        rcases List.mem_cons.1 hr' with rfl | hr'
        · exact le_refl _
        · exact le_trans (h5 _ hr' hm') (by omega)
      · refine ⟨r, List.mem_cons_of_mem _ h3, h4, fun r' hr' hm' => ?_⟩
        rcases List.mem_cons.1 hr' with rfl | hr'
        · exact not_lt.1 fun h => hx ⟨hm', h⟩
        · exact h5 _ hr' hm'
    · have : r0 = x := by
        rcases List.mem_cons.1 h with h | h
        · exact h
        · exact absurd ⟨r0, h, hm⟩ hl
      subst this
      refine ⟨r0, h, hm, fun r' hr' hm' => ?_⟩
      rcases List.mem_cons.1 hr' with rfl | hr'
      · exact le_refl _
      · exact absurd ⟨r', hr', hm'⟩ hl

/-- Each outcome with a result is the value of a longest matching prefix. -/
theorem C35_results_are_longest (t : LpmModel.Table) (hd : GMap.Distinct t) (hw : ∀ r ∈ routesOf t, r.length ≤ 32)
    (key v : Nat) (h : LpmModel.search t key (some v)) :
    ∃ r, LpmSpec.best (routesOf t) key r ∧ r.device = v := by
  obtain ⟨_, w, _, hg, hm, hall⟩ := h
  rw [GMap.forallB_iff hd] at hall
  have h0 : (⟨key, w, v⟩ : LpmSpec.Route) ∈ routesOf t := (mem_routesOf hd _).2 hg
  have hm0 : LpmSpec.matchesIp ⟨key, w, v⟩ key := rfl
  -- a longest matching route
  obtain ⟨r, hr⟩ := exists_best h0 hm0
  refine ⟨r, hr, ?_⟩
  have := hall _ _ ((mem_routesOf hd r).1 hr.1)
  rw [(matchesItem_iff (hw r hr.1)).2 hr.2.1] at this
  have hl := hr.2.2 _ h0 hm0
  simp at this hl
  omega

example : LpmModel.search [((0x0A000001, 32), 3), ((0x0A000000, 8), 2)] 0x0A000001 (some 3) :=
  ⟨by decide, 32, by omega, rfl, rfl, by decide⟩

/-- Coverage, when the longest match was stored under the very key searched for and no other
longest match has another value. -/
theorem C35_exact_key_covered_partial (t : LpmModel.Table) (hd : GMap.Distinct t) (hw : ∀ r ∈ routesOf t, r.length ≤ 32)
    (r : LpmSpec.Route) (hr : LpmSpec.best (routesOf t) r.dest r)
    (hu : ∀ r', LpmSpec.best (routesOf t) r.dest r' → r'.device = r.device) :
    LpmModel.search t r.dest (some r.device) := by
  have hg := (mem_routesOf hd r).1 hr.1
  have hm := (matchesItem_iff (hw r hr.1)).2 hr.2.1
  refine ⟨?_, r.length, by have := hw r hr.1; omega, hg, hm, ?_⟩
  · rw [Bool.eq_false_iff]
    intro hall
    rw [GMap.forallB_iff hd] at hall
    have := hall _ _ hg
    simp [hm] at this
  · rw [GMap.forallB_iff hd]
    rintro ⟨k, w⟩ v hk
    have hr' := (mem_routesOf hd ⟨k, w, v⟩).2 hk
    by_cases hm' : LpmSpec.matchesIp ⟨k, w, v⟩ r.dest
    · have hle := hr.2.2 _ hr' hm'
      by_cases hlt : w < r.length
      · simp [hlt]
      · have : v = r.device := hu ⟨k, w, v⟩ ⟨hr', hm', fun r'' h1 h2 => le_trans (hr.2.2 _ h1 h2) (by simpa using hlt)⟩
        simp [this]
    · have : LpmModel.matchesItem r.dest (k, w) = false := by
        rw [Bool.eq_false_iff]; intro h; exact hm' ((matchesItem_iff (r := ⟨k, w, v⟩) (hw _ hr')).1 h)
      simp [this]

/-- In general real answers are missed: with the single route 10.0.0.0/8 the model has no outcome
at all for 10.1.2.3, although every longest-prefix-match search finds the route. -/
theorem C35_prefix_match_not_covered : ∃ t : LpmModel.Table, ∃ key,
    (∀ a, ¬ LpmModel.search t key a) ∧
    ∀ search, LpmSpec.IsSearch search → search (routesOf t) key = some 1 := by
  refine ⟨[((0x0A000000, 8), 1)], 0x0A010203, ?_, ?_⟩
  · rintro (_ | v)
    · simp only [LpmModel.search]; decide
    · rintro ⟨_, w, _, hg, _⟩
      simp [GMap.get] at hg
  · intro search hs
    have := hs (routesOf [((0x0A000000, 8), 1)]) 0x0A010203
    cases h : search (routesOf [((0x0A000000, 8), 1)]) 0x0A010203 with
    | none =>
      rw [h] at this
      exact absurd rfl (this ⟨0x0A000000, 8, 1⟩ (by simp [routesOf]))
    | some d =>
      rw [h] at this
      obtain ⟨r, ⟨hr, _⟩, rfl⟩ := this
      simp [routesOf] at hr
      simp [hr]

/-- lpm_set in the model: under the contract's precondition it stores exactly what the contract
says, when there is space. -/
theorem C35_set_exact (cap : Nat) (t : LpmModel.Table) (hd : GMap.Distinct t) (key width value : Nat)
    (hpre : LpmSpec.setPre (routesOf t) key width) :
    ∃ t' b, LpmModel.set cap t key width value = some (t', b) ∧ GMap.Distinct t' ∧ (b = true ↔ t.length < cap) ∧
      ∀ r, r ∈ routesOf t' ↔ r ∈ LpmSpec.set cap (routesOf t) key width value := by
  have hn : t.get (key, width) = none := by
    cases h : t.get (key, width) with
    | none => rfl
    | some v => exact absurd ⟨rfl, rfl⟩ (hpre.2 ⟨key, width, v⟩ ((mem_routesOf hd _).2 h))
  have hlen : (routesOf t).length = t.length := by simp [routesOf]
  by_cases hc : t.length < cap
  · have hd' := GMap.distinct_set hd (key, width) value
    refine ⟨_, true, by simp [LpmModel.set, hpre.1, hc], hd', by simp [hc], fun r => ?_⟩
    have hset : LpmSpec.set cap (routesOf t) key width value = ⟨key, width, value⟩ :: routesOf t := by
      rw [LpmSpec.set, if_pos (hlen ▸ hc)]
    rw [mem_routesOf hd', GMap.get_set, hset, List.mem_cons, mem_routesOf hd]
    obtain ⟨a, b, c⟩ := r
    by_cases he : (key, width) = (a, b)
    · cases he
      simp [hn, eq_comm]
    · rw [if_neg he]
      constructor
      · exact .inr
      · rintro (h | h)
        · cases h; exact absurd rfl he
        · exact h
  · refine ⟨t, false, by simp [LpmModel.set, hpre.1, hc, hn], hd, by simp [hc], fun r => ?_⟩
    rw [LpmSpec.set, if_neg (hlen ▸ hc)]

example : ∃ t', LpmModel.set 4 [((0x0A000000, 8), 1)] 0x0B000000 8 2 = some (t', true) ∧
    LpmSpec.setPre (routesOf [((0x0A000000, 8), 1)]) 0x0B000000 8 := ⟨_, rfl, by decide⟩

/-- Setting a prefix that is already there breaks the contract of lpm.h; the model does not
report it and overwrites the value. -/
theorem C35_repeated_set_unreported (cap : Nat) (t : LpmModel.Table) (key width v v' : Nat) (hw : width ≤ 32)
    (h : t.get (key, width) = some v) :
    ¬ LpmSpec.setPre (routesOf t) key width ∧
    LpmModel.set cap t key width v' = some (t.set (key, width) v', true) := by
  constructor
  · intro hpre
    exact hpre.2 ⟨key, width, v⟩ (List.mem_map.2 ⟨_, GMap.get_some_mem h, rfl⟩) ⟨rfl, rfl⟩
  · simp [LpmModel.set, hw, h]

example : GMap.get [((0x0A000000, 8), 1)] (0x0A000000, 8) = some 1 := by decide

/-! ### C34: hash map -/

/-- The contract's view of a state of the model. -/
def specState (s : MapModel.State) : HashMapSpec.State := ⟨s.mem, s.values, s.addrs⟩

/-- What holds between calls: keys in the map are unchanged, in one owned element, and the map
holds a quarter of it. -/
structure MapOk (ks : Nat) (s : MapModel.State) : Prop where
  null : s.elem 0 = none
  frac : ∀ e, s.frac e ≤ 100
  key : ∀ k p, s.addrs.get k = some p → HashMapSpec.keyAt ks (specState s) p = k ∧ s.frac p ≤ 75 ∧ s.eph p = false ∧
    ∀ i < ks, s.elem (p + i) = some p

theorem load_some {ks : Nat} {s : MapModel.State} {p : Nat} {k : HashMapSpec.Key} (h : MapModel.load ks s p = some k) :
    k = HashMapSpec.keyAt ks (specState s) p ∧ ∀ i < ks, MapModel.readOk s (p + i) = true := by
  simp only [MapModel.load] at h
  split at h
  · rename_i ha
    cases h
    exact ⟨rfl, fun i hi => List.all_eq_true.1 ha i (List.mem_range.2 hi)⟩
  · cases h

theorem readOk_ne {ks : Nat} {s : MapModel.State} {p : Nat} (hk : 0 < ks) (hn : s.elem 0 = none)
    (h : ∀ i < ks, MapModel.readOk s (p + i) = true) : p ≠ 0 := by
  rintro rfl
  have := h 0 hk
  simp [MapModel.readOk, hn] at this

theorem map_step {ks capacity : Nat} (hk : 0 < ks) {s s' : MapModel.State} {c : HashMapSpec.Call} {r : Option (Option Nat)}
    (ok : MapOk ks s) (fits : ∀ p v, c = .set p v → ∀ i < ks, s.elem (p + i) = some p)
    (h : MapModel.step ks capacity s c = some (s', r)) :
    HashMapSpec.Pre ks capacity (specState s) c ∧ r = HashMapSpec.answer ks (specState s) c ∧
      specState s' = HashMapSpec.next ks (specState s) c ∧ MapOk ks s' ∧ s'.elem = s.elem := by
  cases c with
  | get p =>
    simp only [MapModel.step, MapModel.get, Option.bind_eq_bind, Option.bind_eq_some_iff, Option.some.injEq, Prod.mk.injEq] at h
    obtain ⟨v, ⟨key, h1, h2⟩, rfl, rfl⟩ := h
    obtain ⟨rfl, h3⟩ := load_some h1
    exact ⟨readOk_ne hk ok.null h3, by simp [HashMapSpec.answer, specState, ← h2], rfl, ok, rfl⟩
  | set p v =>
    simp only [MapModel.step, MapModel.set, MapModel.take, Option.bind_eq_bind, Option.bind_eq_some_iff, Option.some.injEq, Prod.mk.injEq, Prod.exists] at h
    obtain ⟨s1, ⟨key, h1, s2, f, h2, h3⟩, rfl, rfl⟩ := h
    obtain ⟨rfl, h4⟩ := load_some h1
    split at h2 <;> [skip; cases h2]
    rename_i he
    split at h2 <;> [skip; cases h2]
    rename_i hf
    simp only [Option.getD_some, Option.some.injEq, Prod.mk.injEq] at h2 hf
    obtain ⟨rfl, rfl⟩ := h2
    split at h3 <;> [skip; cases h3]
    rename_i hc
    cases h3
    refine ⟨⟨readOk_ne hk ok.null h4, hc.1, hc.2.1, hc.2.2⟩, rfl, rfl, ⟨ok.null, ?_, ?_⟩, rfl⟩
    · intro e
      simp only
      split
      · have := ok.frac p; omega
      · exact ok.frac e
    · intro k q hq
      simp only at hq ⊢
      rw [GMap.get_set] at hq
      split at hq
      · rename_i hkk
        cases hq
        refine ⟨hkk, ?_, he.2, fits p v rfl⟩
        simp only [↓reduceIte]
        have := ok.frac p; omega
      · obtain ⟨h5, h6, h7⟩ := ok.key k q hq
        refine ⟨h5, ?_, h7⟩
        split
        · rename_i hqp; subst hqp; omega
        · exact h6
  | remove p =>
    simp only [MapModel.step, MapModel.remove, MapModel.take, MapModel.give, Option.bind_eq_bind, Option.bind_eq_some_iff, Option.some.injEq, Prod.mk.injEq, Prod.exists] at h
    obtain ⟨s1, ⟨key, h1, s2, f, h2, h3⟩, rfl, rfl⟩ := h
    obtain ⟨rfl, h4⟩ := load_some h1
    split at h2 <;> [skip; cases h2]
    rename_i he
    split at h2 <;> [skip; cases h2]
    simp only [Option.getD_none, Option.some.injEq, Prod.mk.injEq] at h2
    obtain ⟨rfl, rfl⟩ := h2
    split at h3 <;> [skip; cases h3]
    rename_i hc
    split at h3 <;> [skip; cases h3]
    rename_i hf
    cases h3
    simp only [↓reduceIte] at hf
    have hkp := ok.key _ _ hc.2.2
    refine ⟨⟨readOk_ne hk ok.null h4, hc.2.1, hc.2.2⟩, rfl, rfl, ⟨ok.null, ?_, ?_⟩, rfl⟩
    · intro e
      simp only
      split
      · simpa using hf
      · simpa [*] using ok.frac e
    · intro k q hq
      simp only at hq ⊢
      rw [GMap.get_remove] at hq
      split at hq
      · cases hq
      · rename_i hne
        obtain ⟨h5, h6, h7⟩ := ok.key k q hq
        refine ⟨h5, ?_, h7⟩
        have hqp : q ≠ p := by
          rintro rfl
          exact hne h5
        simpa [hqp] using h6
  | write a v =>
    simp only [MapModel.step, MapModel.write, Option.bind_eq_bind, Option.bind_eq_some_iff, Option.some.injEq, Prod.mk.injEq] at h
    obtain ⟨s1, h1, rfl, rfl⟩ := h
    split at h1 <;> [skip; cases h1]
    rename_i e he
    split at h1 <;> [skip; cases h1]
    rename_i hw
    cases h1
    have hpre : ∀ k p, s.addrs.get k = some p → a < p ∨ p + ks ≤ a := by
      intro k p hkp
      by_contra hcon
      obtain ⟨_, h6, h7, h8⟩ := ok.key k p hkp
      have := h8 (a - p) (by omega)
      rw [show p + (a - p) = a by omega, he] at this
      cases this
      rcases hw with hw | hw
      · simp [h7] at hw
      · omega
    refine ⟨hpre, rfl, rfl, ⟨ok.null, ok.frac, ?_⟩, rfl⟩
    intro k p hkp
    obtain ⟨h5, h6⟩ := ok.key k p hkp
    refine ⟨?_, h6⟩
    rw [← h5]
    refine List.map_congr_left fun i hi => ?_
    have hi := List.mem_range.1 hi
    have := hpre k p hkp
    simp only [specState]
    rw [if_neg (by omega)]

/-- Everything the symbolic model accepts is legal use of the map, and it predicts exactly the
answers and contents of the contract; in particular a full map, a key already there and the
modification of a key in the map are rejected. Restricted to keys that lie in one element of the
heap; in general it is false, see `C34_key_across_elements_modified`. -/
theorem C34_accepted_use_is_legal_partial {ks capacity : Nat} (hk : 0 < ks) (cs : List HashMapSpec.Call) {s s' : MapModel.State}
    {rs : List (Option (Option Nat))} (null : s.elem 0 = none) (frac : ∀ e, s.frac e ≤ 100) (empty : s.values = [] ∧ s.addrs = [])
    (fits : ∀ p v, .set p v ∈ cs → ∀ i < ks, s.elem (p + i) = some p)
    (h : MapModel.run ks capacity s cs = some (s', rs)) :
    HashMapSpec.Legal ks capacity (specState s) cs ∧ rs = HashMapSpec.answers ks (specState s) cs ∧
      specState s' = HashMapSpec.final ks (specState s) cs := by
  have ok : MapOk ks s := ⟨null, frac, by simp [empty.2, GMap.get]⟩
  clear null frac empty
  induction cs generalizing s rs with
  | nil =>
    simp only [MapModel.run, Option.some.injEq, Prod.mk.injEq] at h
    obtain ⟨rfl, rfl⟩ := h
    exact ⟨trivial, rfl, rfl⟩
  | cons c cs ih =>
    simp only [MapModel.run, Option.bind_eq_bind, Option.bind_eq_some_iff, Option.some.injEq, Prod.mk.injEq, Prod.exists] at h
    obtain ⟨s1, r, h1, s2, rs', h2, rfl, rfl⟩ := h
    obtain ⟨h3, h4, h5, h6, h7⟩ := map_step hk ok (fun p v hc => fits p v (hc ▸ List.mem_cons_self)) h1
    obtain ⟨h8, h9, h10⟩ := ih (fun p v hc => h7 ▸ fits p v (List.mem_cons_of_mem _ hc)) h2 h6
    rw [h5] at h8 h9 h10
    exact ⟨⟨h3, h8⟩, by rw [h4, h9]; rfl, h10⟩

/-- Two 4-byte elements at addresses 4 and 8, all owned. -/
def sampleHeap : MapModel.State where
  mem := fun _ => 0
  elem := fun a => if a < 4 then none else if a < 12 then some (a / 4 * 4) else none
  frac := fun _ => 100
  eph := fun _ => false
  values := []
  addrs := []

example : (MapModel.run 4 2 sampleHeap [.get 4, .write 5 1, .set 4 7, .get 4, .remove 4, .write 5 2, .get 4]).map (·.2)
    = some [some none, none, none, some (some 7), none, none, some none] ∧
    (MapModel.run 4 2 sampleHeap [.set 4 7, .write 5 1]).map (·.2) = none ∧
    (MapModel.run 4 2 sampleHeap [.set 4 7, .set 8 7]).map (·.2) = none := by decide

/-- Legal calls on owned memory are accepted (so the theorem above does not hold for lack of
accepted programs): what is needed of the ownership is what map.h asks for. -/
theorem C34_legal_use_accepted {ks capacity : Nat} {s : MapModel.State} (c : HashMapSpec.Call)
    (ok : MapOk ks s) (pre : HashMapSpec.Pre ks capacity (specState s) c)
    (own : match c with
      | .get p => ∀ i < ks, MapModel.readOk s (p + i) = true
      | .set p _ => s.elem p = some p ∧ s.eph p = false ∧ 25 ≤ s.frac p ∧ ∀ i < ks, MapModel.readOk s (p + i) = true
      | .remove p => s.elem p = some p ∧ s.frac p ≠ 0
      | .write a _ => ∃ e, s.elem a = some e ∧ (s.eph e = true ∨ s.frac e = 100)) :
    (MapModel.step ks capacity s c).isSome = true := by
  have hload : ∀ p, (∀ i < ks, MapModel.readOk s (p + i) = true) → MapModel.load ks s p = some (HashMapSpec.keyAt ks (specState s) p) := by
    intro p hp
    rw [MapModel.load, if_pos (List.all_eq_true.2 fun i hi => hp i (List.mem_range.1 hi))]
    rfl
  cases c with
  | get p => simp [MapModel.step, MapModel.get, hload p own]
  | set p v =>
    obtain ⟨h1, h2, h3, h4⟩ := own
    have h5 : s.values.length < capacity ∧ s.values.get (HashMapSpec.keyAt ks (specState s) p) = none
      ∧ s.addrs.get (HashMapSpec.keyAt ks (specState s) p) = none := pre.2
    simp [MapModel.step, MapModel.set, hload p h4, MapModel.take, h1, h2, h3, h5]
  | remove p =>
    obtain ⟨h1, h2⟩ := own
    obtain ⟨_, h3, h4⟩ := pre
    obtain ⟨_, h5, h6, h7⟩ := ok.key _ _ h4
    have hl := hload p (fun i hi => by simp [MapModel.readOk, h7 i hi, h2])
    have h3 : ¬ s.values.get (HashMapSpec.keyAt ks (specState s) p) = none := h3
    have h4 : s.addrs.get (HashMapSpec.keyAt ks (specState s) p) = some p := h4
    have h8 : (s.frac p + 25) % 256 ≤ 100 := by omega
    simp [MapModel.step, MapModel.remove, hl, MapModel.take, MapModel.give, h1, h2, h3, h4, h6, h8]
  | write a v =>
    obtain ⟨e, he, hw⟩ := own
    simp [MapModel.step, MapModel.write, he, hw]

/-- The shares of a key's element as map.h has them: storing takes a quarter, removing returns it. -/
theorem C34_ownership_exact {ks capacity : Nat} {s s' : MapModel.State} {p : Nat} (hf : ∀ e, s.frac e ≤ 100) :
    (∀ v, MapModel.set ks capacity s p v = some s' → 25 ≤ s.frac p ∧ s'.frac p = s.frac p - 25 ∧ ∀ e, e ≠ p → s'.frac e = s.frac e) ∧
    (MapModel.remove ks s p = some s' → s.frac p ≠ 0 ∧ s'.frac p = s.frac p + 25 ∧ s'.frac p ≤ 100 ∧ ∀ e, e ≠ p → s'.frac e = s.frac e) := by
  constructor
  · intro v h
    simp only [MapModel.set, MapModel.take, Option.bind_eq_bind, Option.bind_eq_some_iff, Prod.exists] at h
    obtain ⟨key, h1, s2, f, h2, h3⟩ := h
    split at h2 <;> [skip; cases h2]
    split at h2 <;> [skip; cases h2]
    rename_i hc
    simp only [Option.getD_some, Option.some.injEq, Prod.mk.injEq] at h2 hc
    obtain ⟨rfl, rfl⟩ := h2
    split at h3 <;> [skip; cases h3]
    cases h3
    exact ⟨hc, by simp, fun e he => by simp [he]⟩
  · intro h
    simp only [MapModel.remove, MapModel.take, MapModel.give, Option.bind_eq_bind, Option.bind_eq_some_iff, Prod.exists] at h
    obtain ⟨key, h1, s2, f, h2, h3⟩ := h
    split at h2 <;> [skip; cases h2]
    split at h2 <;> [skip; cases h2]
    simp only [Option.getD_none, Option.some.injEq, Prod.mk.injEq] at h2
    obtain ⟨rfl, rfl⟩ := h2
    split at h3 <;> [skip; cases h3]
    rename_i hc
    split at h3 <;> [skip; cases h3]
    rename_i h5
    cases h3
    have := hf p
    simp only [↓reduceIte] at h5 ⊢
    have h6 : (s.frac p - s.frac p + (s.frac p + 25) % 256) % 256 = s.frac p + 25 := by omega
    rw [h6] at h5 ⊢
    exact ⟨hc.1, rfl, h5, fun e he => by simp [he]⟩

example : (MapModel.set 4 2 sampleHeap 4 7).isSome = true ∧ ((MapModel.set 4 2 sampleHeap 4 7).bind (MapModel.remove 4 · 4)).isSome = true := by
  decide

/-- A key spanning two elements of the heap can be modified while it is in the map: only its first
element is taken (`uint8_t key[2]` allocated with `os_memory_alloc(2, 1)`). The program is accepted
although it violates the contract. -/
theorem C34_key_across_elements_modified : ∃ s : MapModel.State,
    s.elem 0 = none ∧ (∀ e, s.frac e ≤ 100) ∧ s.values = [] ∧ s.addrs = [] ∧
    (MapModel.run 2 1 s [.set 4 7, .write 5 1]).isSome = true ∧
    ¬ HashMapSpec.Legal 2 1 (specState s) [.set 4 7, .write 5 1] := by
  refine ⟨{ sampleHeap with elem := fun a => if a = 0 then none else some a }, rfl, fun _ => le_refl _, rfl, rfl, by decide, ?_⟩
  rintro ⟨_, h, _⟩
  have := h [0, 0] 4 (by decide)
  omega

/-- The capacity check of map_alloc never reports anything, as the product is computed modulo
2^64: too large capacities are accepted. -/
theorem C34_alloc_check_vacuous : (∀ capacity, MapModel.allocOk capacity = true) ∧
    ∃ capacity < 2 ^ 64, ¬ capacity * 64 ≤ 2 ^ 64 - 1 ∧ MapModel.allocOk capacity = true := by
  have h : ∀ capacity, MapModel.allocOk capacity = true := by
    intro capacity
    have := Nat.mod_lt (capacity * 64) (show 2 ^ 64 > 0 by decide)
    exact decide_eq_true (Nat.le_sub_one_of_lt this)
  exact ⟨h, 2 ^ 62, by omega, by omega, h _⟩

end Verif.Props
