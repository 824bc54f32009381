/- Property C79: what the annotations of the index pool and of the allocator state holds of their code. -/
import Verif.Spec.PoolPred
import Verif.Spec.BucketsProofs
import Verif.Env.IndexPoolProofs
import Verif.Props.MemoryAlloc
import Verif.Props.MemoryBoot

set_option autoImplicit false

namespace Verif.Props
open Verif.PoolPred
open Verif.Buckets (nth drop update allEq nth_nat drop_nat update_nat)
open Verif.IndexPool (Pool TIME_MAX Rep)
open Verif.IndexPoolSpec (young)

private theorem getD_get {l : List Nat} {k : Nat} (h : k < l.length) (d : Nat) : l[k]? = some (l.getD k d) := by
  rw [List.getD_eq_getElem?_getD, List.getElem?_eq_getElem h]; rfl

private theorem truths_iff (d : Nat) (ts : List Nat) (items : GMap Nat Nat) :
    poolpTruths d ts items ↔ items.Distinct ∧
      ∀ k, items.get k = (ts[k]?).bind fun t => if t = TIME_MAX then none else some t := by
  unfold poolpTruths idxInBounds nthEq GMap.has
  simp only [nth_nat]
  refine and_congr_right fun _ => ⟨?_, ?_⟩
  · rintro ⟨h1, h2⟩ k
    by_cases hk : k < ts.length
    · rw [getD_get hk d, Option.bind_some]
      have h1 := h1 k
      have h2 := h2 k
      by_cases hm : ts.getD k d = TIME_MAX
      · rw [if_pos hm]
        cases hg : items.get k with
        | none => rfl
        | some v => rw [hg] at h1; exact absurd hm (h1.2 rfl).2
      · rw [if_neg hm]
        rcases h2 with h2 | h2
        · exact absurd (h1.1 ⟨by omega, hm⟩) h2
        · exact h2
    · rw [List.getElem?_eq_none (by omega)]
      have h1 := h1 k
      cases hg : items.get k with
      | none => rfl
      | some v => rw [hg] at h1; have := (h1.2 rfl).1; omega
  · intro h
    constructor
    · intro k
      rw [h k]
      by_cases hk : k < ts.length
      · rw [getD_get hk d, Option.bind_some]
        by_cases hm : ts.getD k d = TIME_MAX
        · rw [if_pos hm]; exact ⟨fun h => absurd hm h.2, fun h => by cases h⟩
        · rw [if_neg hm]; exact ⟨fun _ => rfl, fun _ => ⟨by omega, hm⟩⟩
      · rw [List.getElem?_eq_none (by omega)]
        exact ⟨fun h => by omega, fun h => by cases h⟩
    · intro k
      by_cases hk : k < ts.length
      · rw [h k, getD_get hk d, Option.bind_some]
        by_cases hm : ts.getD k d = TIME_MAX
        · rw [if_pos hm]; exact Or.inl fun h => by cases h
        · rw [if_neg hm]; exact Or.inr rfl
      · rw [h k, List.getElem?_eq_none (by omega)]; exact Or.inl fun h => by cases h

private theorem poolp_iff (d : Nat) (p : Pool) (size exp : Nat) (items : GMap Nat Nat) :
    poolp d p size exp items ↔ Rep size exp p items := by
  constructor
  · rintro ⟨_, _, ⟨h1, h2, rfl, rfl, h3⟩, ht, h4⟩
    obtain ⟨h5, h6⟩ := (truths_iff ..).1 ht
    exact ⟨h1, h2, h3, h4, h5, h6⟩
  · rintro ⟨h1, h2, h3, h4, h5, h6⟩
    exact ⟨_, _, ⟨h1, h2, rfl, rfl, h3⟩, (truths_iff ..).2 ⟨h5, h6⟩, h4⟩

private theorem mem_allEq {α : Type} (v : α) (l : List α) : allEq v l ↔ ∀ x ∈ l, x = v := by
  induction l with
  | nil => simp [allEq]
  | cons x l ih => simp [allEq, ih]

/-- C79, the lemmas in index_pool.c. -/
theorem C79_lemmas :
    -- index_pool.c:40-51 forall_eq_nth
    (∀ (α : Type) (dflt : α) (lst : List α) (item : α), allEq item lst →
      ∀ n : Int, n < 0 ∨ n ≥ lst.length ∨ nth dflt n lst = item) ∧
    -- index_pool.c:53-62 forall_nth_unchanged
    (∀ (α : Type) (dflt : α) (idx : Int) (x : α) (xs : List α) (other : Int),
      nth dflt other xs = nth dflt other (update idx x xs) ∨ idx = other) ∧
    -- index_pool.c:72-84 truths_update
    (∀ (dflt : Nat) (timestamps : List Nat) (items : GMap Nat Nat) (index time : Nat), poolpTruths dflt timestamps items →
      idxInBounds (index : Int) timestamps →
      poolpTruths dflt (update (index : Int) time timestamps)
        (if time = TIME_MAX then items.remove index else items.set index time)) ∧
    -- index_pool.c:116-125 pool_items_implication_tail
    (∀ (dflt : Nat) (h : Nat × Nat) (t : GMap Nat Nat) (timestamps : List Nat), GMap.Distinct (h :: t) →
      (∀ k : Nat, ¬ GMap.has (h :: t) k = true ∨ GMap.get (h :: t) k = some (nth dflt (k : Int) timestamps)) →
      ∀ k : Nat, ¬ GMap.has t k = true ∨ GMap.get t k = some (nth dflt (k : Int) timestamps)) ∧
    -- index_pool.c:127-141 pool_items_young_forall_to_ghostmap
    ∀ (dflt : Nat) (items : GMap Nat Nat) (timestamps : List Nat) (time exp : Nat), items.Distinct →
      (∀ k : Nat, ¬ items.has k = true ∨ items.get k = some (nth dflt (k : Int) timestamps)) →
      (∀ k : Nat, ¬ items.has k = true ∨ (time < exp ∨ time - exp ≤ nth dflt (k : Int) timestamps)) →
      items.forallB (fun _ v => young time exp v) = true := by
  refine ⟨?_, ?_, ?_, ?_, ?_⟩
  · intro α dflt lst item h n
    by_cases h0 : n < 0
    · exact Or.inl h0
    · obtain ⟨m, rfl⟩ := Int.eq_ofNat_of_zero_le (by omega : 0 ≤ n)
      by_cases h1 : m < lst.length
      · right; right
        rw [nth_nat, List.getD_eq_getElem?_getD, List.getElem?_eq_getElem h1]
        exact (mem_allEq _ _).1 h _ (List.getElem_mem h1)
      · right; left; omega
  · intro α dflt idx x xs
    induction xs generalizing idx with
    | nil => intro other; exact Or.inl rfl
    | cons h t ih =>
      intro other
      by_cases h0 : idx = 0
      · subst h0
        by_cases h1 : other = 0
        · exact Or.inr h1.symm
        · left; simp [update, nth, h1]
      · by_cases h1 : other = 0
        · left; simp [update, nth, h0, h1]
        · rcases ih (idx - 1) (other - 1) with h | h
          · left; simp only [update, nth, h0, h1, if_false]; exact h
          · right; omega
  · intro d ts items index time h hb
    rw [truths_iff] at h ⊢
    obtain ⟨h1, h2⟩ := h
    have hi : index < ts.length := by have := hb.2; omega
    rw [update_nat]
    by_cases hm : time = TIME_MAX
    · rw [if_pos hm]
      refine ⟨GMap.distinct_remove h1 _, fun k => ?_⟩
      rw [GMap.get_remove, List.getElem?_set]
      by_cases hk : index = k
      · subst hk; simp [hi, hm]
      · simp only [hk, ↓reduceIte]; exact h2 k
    · rw [if_neg hm]
      refine ⟨GMap.distinct_set h1 _ _, fun k => ?_⟩
      rw [GMap.get_set, List.getElem?_set]
      by_cases hk : index = k
      · subst hk; simp [hi, hm]
      · simp only [hk, ↓reduceIte]; exact h2 k
  · rintro d ⟨hk, hv⟩ t ts hd h k
    have hnot : GMap.get t hk = none := by
      rw [GMap.get_eq_none_iff]; exact (List.nodup_cons.1 hd).1
    by_cases he : hk = k
    · subst he; left; simp [GMap.has, hnot]
    · have := h k
      simp only [GMap.has, GMap.get, if_neg he] at this
      exact this
  · intro d items ts time exp hd h1 h2
    rw [GMap.forallB_iff hd]
    intro k v hg
    have hh : items.has k = true := by simp [GMap.has, hg]
    rcases h1 k with h1 | h1
    · exact absurd hh h1
    rcases h2 k with h2 | h2
    · exact absurd hh h2
    rw [hg] at h1
    cases h1
    by_contra hy
    rw [Bool.not_eq_true, IndexPool.young_false_iff] at hy
    omega

/-- C79, the contracts in index_pool.c, for every pool with the predicate. -/
theorem C79_contracts (dflt size exp : Nat) :
    -- index_pool_alloc, index_pool.c:85-86
    (size * 8 ≤ 2 ^ 64 - 1 → ∃ p, IndexPool.alloc size exp = some p ∧ poolp dflt p size exp []) ∧
    ∀ (p : Pool) (items : GMap Nat Nat), poolp dflt p size exp items →
      -- index_pool_borrow, index_pool.c:144-158
      (∀ time : Nat, time ≠ TIME_MAX → ∃ p' r, IndexPool.borrow p time = some (p', r) ∧
        (if items.length = size then
          (if items.forallB (fun _ v => young time exp v) = true then r = none else ∃ index, r = some (index, true))
         else r ≠ none) ∧
        match r with
        | some (index, used) => poolp dflt p' size exp (items.set index time) ∧ index < size ∧
            if used = true then ∃ old, items.get index = some old ∧ young time exp old = false
            else items.get index = none
        | none => poolp dflt p' size exp items) ∧
      -- index_pool_refresh, index_pool.c:242-245
      (∀ time index : Nat, time ≠ TIME_MAX → index < size →
        ∃ p', IndexPool.refresh p time index = some p' ∧ poolp dflt p' size exp (items.set index time)) ∧
      -- index_pool_used, index_pool.c:255-260; it leaves the pool as it is
      (∀ time index : Nat, IndexPool.used p time index = some (match items.get index with
        | none => false
        | some t => young time exp t)) ∧
      -- index_pool_return, index_pool.c:286-288
      ∀ index : Nat, index < size →
        ∃ p', IndexPool.giveBack p index = some p' ∧ poolp dflt p' size exp (items.remove index) := by
  simp only [poolp_iff]
  refine ⟨fun _ => IndexPool.alloc_rep size exp, fun p items r => ⟨fun time ht => ?_, fun time index ht hi => ?_,
    fun time index => ?_, fun index hi => ?_⟩⟩
  · rcases IndexPool.borrow_spec (p := p) time (by rw [r.size_eq]; exact r.lbi) (by rw [r.size_eq]; exact r.len) with
      ⟨i, u, hb, hi, tt, htt, hav⟩ | ⟨hb, hbusy⟩
    · rw [r.size_eq] at hi
      have hu : if u = true then ∃ old, items.get i = some old ∧ young time exp old = false else items.get i = none := by
        rcases hav with ⟨rfl, rfl⟩ | ⟨h1, h2, h3, rfl⟩
        · simp [r.get_none htt]
        · simp only [↓reduceIte]
          exact ⟨tt, r.get_some htt h1, by rw [IndexPool.young_false_iff, ← r.exp_eq]; exact ⟨h2, h3⟩⟩
      refine ⟨_, _, hb, ?_, r.set hi ht i (by omega), hi, hu⟩
      split
      · rename_i hlen
        have hall := ((GMap.length_le_of_keys_lt r.distinct r.keys_lt).2.1 hlen) i hi
        cases u with
        | false => exact absurd hu hall
        | true =>
          rw [if_neg]
          · exact ⟨i, rfl⟩
          · intro hf
            rw [GMap.forallB_iff r.distinct] at hf
            simp only [↓reduceIte] at hu
            obtain ⟨old, ho, hy⟩ := hu
            rw [hf i old ho] at hy; cases hy
      · simp
    · refine ⟨_, _, hb, ?_, r⟩
      have hlen : items.length = size := by
        apply (GMap.length_le_of_keys_lt r.distinct r.keys_lt).2.2
        intro k hk
        obtain ⟨tt, h1, h2, _⟩ := hbusy k (by rw [r.size_eq]; exact hk)
        rw [r.get_some h1 h2]; simp
      rw [if_pos hlen, if_pos]
      rw [GMap.forallB_iff r.distinct]
      intro k v hg
      have hk : k < size := r.keys_lt k (by rw [hg]; simp)
      obtain ⟨tt, h1, h2, h3⟩ := hbusy k (by rw [r.size_eq]; exact hk)
      have : tt = v := by
        have := r.get_some h1 h2; rw [hg] at this; cases this; rfl
      subst this
      by_contra hy
      rw [Bool.not_eq_true, IndexPool.young_false_iff, ← r.exp_eq] at hy
      exact h3 hy
  · exact ⟨_, by rw [IndexPool.refresh, if_pos (by rw [r.len]; exact hi)], r.set hi ht p.lastBorrowed r.lbi⟩
  · obtain ⟨p', res, items', h1, -, h2⟩ := IndexPool.step_refines r (.used time index) trivial
    simp only [IndexPool.step, Option.bind_eq_bind, Option.bind_eq_some_iff, Option.some.injEq, Prod.mk.injEq] at h1
    obtain ⟨b, hb, rfl, rfl⟩ := h1
    rw [hb]
    have h3 := h2.2
    rw [h3]
    cases items.get index <;> rfl
  · exact ⟨_, by rw [IndexPool.giveBack, if_pos (by rw [r.len]; exact hi)], r.remove hi⟩

/-- C79, the loop of `index_pool_alloc` (index_pool.c:95-106): the invariant holds on entry, is preserved, and at the end
gives the predicate of the empty pool. -/
theorem C79_alloc_loop (dflt size exp : Nat) :
    (∀ ts : List Nat, ts.length = size → allocInv size size ts) ∧
    (∀ (n : Nat) (ts : List Nat), allocInv size (n + 1) ts → ∃ ts', IndexPool.fill (n + 1) ts = IndexPool.fill n ts' ∧
      allocInv size n ts') ∧
    ∀ ts : List Nat, allocInv size 0 ts → poolp dflt ⟨ts, size, exp, 0⟩ size exp [] := by
  refine ⟨fun ts h => ⟨Nat.le_refl _, h, ?_⟩, ?_, ?_⟩
  · rw [drop_nat, List.drop_eq_nil_of_le (by omega)]; trivial
  · rintro n ts ⟨h1, h2, h3⟩
    refine ⟨ts.set n TIME_MAX, by rw [IndexPool.fill, if_pos (by omega)], by omega, by simpa using h2, ?_⟩
    rw [drop_nat, mem_allEq] at h3 ⊢
    rw [List.drop_eq_getElem_cons (by simp; omega), List.getElem_set_self, List.drop_set_of_lt (by omega)]
    simpa using h3
  · rintro ts ⟨-, h2, h3⟩
    rw [show ((0 : Nat) : Int) = ((0 : Nat) : Int) from rfl, drop_nat, List.drop_zero, mem_allEq] at h3
    refine ⟨0, ts, ⟨rfl, rfl, rfl, rfl, h2⟩, (truths_iff ..).2 ⟨GMap.distinct_nil, fun k => ?_⟩, Nat.zero_le _⟩
    cases hk : ts[k]? with
    | none => rfl
    | some t => simp [GMap.get, h3 t (List.mem_of_getElem? hk)]

private theorem scan_step {dflt size exp lb time n : Nat} {p : Pool} {ts : List Nat} {items : GMap Nat Nat} (ht : time ≠ TIME_MAX)
    (hraw : poolpRaw p size exp lb ts) (htr : poolpTruths dflt ts items) (hlb : lb ≤ size) (hn : n < size) (lo : Nat)
    (hpass : passed dflt ts time exp lo n) :
    (∃ used, (∀ k, IndexPool.scan p time (k + 1) n = some (some (n, used))) ∧
      poolp dflt (IndexPool.take p time n) size exp (items.set n time) ∧
      (if used = true then ∃ old, items.get n = some old ∧ young time exp old = false else items.get n = none) ∧
      (items.length = size → items.forallB (fun _ v => young time exp v) = false ∧ used = true)) ∨
    (∀ k, IndexPool.scan p time (k + 1) n = IndexPool.scan p time k (n + 1)) ∧ passed dflt ts time exp lo (n + 1) := by
  have hp : poolp dflt p size exp items := ⟨lb, ts, hraw, htr, hlb⟩
  have r := (poolp_iff ..).1 hp
  obtain ⟨h1, h2, h3, rfl, h5⟩ := hraw
  have hlt : n < p.timestamps.length := by omega
  have hget := getD_get hlt dflt
  set t := p.timestamps.getD n dflt with htdef
  have htake := (poolp_iff dflt ..).2 (r.set hn ht n (by omega))
  have hfull : items.length = size → items.get n ≠ none := fun h =>
    (GMap.length_le_of_keys_lt r.distinct r.keys_lt).2.1 h n hn
  by_cases hA : t = TIME_MAX
  · have hnone := r.get_none (hA ▸ hget)
    refine Or.inl ⟨false, fun k => ?_, htake, by simpa using hnone, fun h => absurd hnone (hfull h)⟩
    rw [IndexPool.scan, hget]
    simp only [Option.bind_eq_bind, Option.bind_some, if_pos hA]
  · have hg := r.get_some hget hA
    by_cases hB : time ≥ p.exp ∧ time - p.exp > t
    · have hy : young time exp t = false := by
        rw [IndexPool.young_false_iff, ← h2]; exact ⟨hB.1, hB.2⟩
      refine Or.inl ⟨true, fun k => ?_, htake, by simpa using ⟨t, hg, hy⟩, fun _ => ⟨?_, rfl⟩⟩
      · rw [IndexPool.scan, hget]
        simp only [Option.bind_eq_bind, Option.bind_some, if_neg hA, if_pos hB]
      · rw [Bool.eq_false_iff]
        intro hf
        rw [GMap.forallB_iff r.distinct] at hf
        rw [hf n t hg] at hy; cases hy
    · refine Or.inr ⟨fun k => ?_, ?_, ?_⟩
      · rw [IndexPool.scan, hget]
        simp only [Option.bind_eq_bind, Option.bind_some, if_neg hA, if_neg hB]
      · intro k
        by_cases hk : k = n
        · subst hk; right; rw [nthEq, nth_nat]; exact hA
        · rcases hpass.1 k with h | h
          · left; omega
          · exact Or.inr h
      · intro k
        by_cases hk : k = n
        · subst hk; right; rw [nth_nat, ← htdef, ← h2]; omega
        · rcases hpass.2 k with h | h
          · left; omega
          · exact Or.inr h

/-- C79, the loops of `index_pool_borrow` (index_pool.c:172-234), from a state with the predicate and with the last index
and the timestamps that are in memory: each invariant holds on entry, and from a state in which it holds, an iteration
either returns what the contract says or leads to a state in which it holds; after both loops, what the invariants say of
all indices gives the contract for the result false. -/
theorem C79_borrow_loops (dflt size exp lb time : Nat) (p : Pool) (ts : List Nat) (items : GMap Nat Nat) (ht : time ≠ TIME_MAX)
    (hraw : poolpRaw p size exp lb ts) (htr : poolpTruths dflt ts items) (hlb : lb ≤ size) :
    -- on entry
    firstInv dflt p size exp lb ts items time p.lastBorrowed ∧
    (∀ n, firstInv dflt p size exp lb ts items time n → n ≥ p.size → secondInv dflt p size exp lb ts items time 0) ∧
    -- an iteration of the first loop
    (∀ n, firstInv dflt p size exp lb ts items time n → n < p.size →
      (∃ used, (∀ k, IndexPool.scan p time (k + 1) n = some (some (n, used))) ∧ n < size ∧
        poolp dflt (IndexPool.take p time n) size exp (items.set n time) ∧
        (if used = true then ∃ old, items.get n = some old ∧ young time exp old = false else items.get n = none) ∧
        (items.length = size → items.forallB (fun _ v => young time exp v) = false ∧ used = true)) ∨
      (∀ k, IndexPool.scan p time (k + 1) n = IndexPool.scan p time k (n + 1)) ∧
        firstInv dflt p size exp lb ts items time (n + 1)) ∧
    -- an iteration of the second loop
    (∀ n, secondInv dflt p size exp lb ts items time n → n < p.lastBorrowed →
      (∃ used, (∀ k, IndexPool.scan p time (k + 1) n = some (some (n, used))) ∧ n < size ∧
        poolp dflt (IndexPool.take p time n) size exp (items.set n time) ∧
        (if used = true then ∃ old, items.get n = some old ∧ young time exp old = false else items.get n = none) ∧
        (items.length = size → items.forallB (fun _ v => young time exp v) = false ∧ used = true)) ∨
      (∀ k, IndexPool.scan p time (k + 1) n = IndexPool.scan p time k (n + 1)) ∧
        secondInv dflt p size exp lb ts items time (n + 1)) ∧
    -- after the loops
    ∀ n n', firstInv dflt p size exp lb ts items time n → n ≥ p.size → secondInv dflt p size exp lb ts items time n' →
      n' ≥ p.lastBorrowed →
      items.length = size ∧ items.forallB (fun _ v => young time exp v) = true ∧ poolp dflt p size exp items := by
  have hp : poolp dflt p size exp items := ⟨lb, ts, hraw, htr, hlb⟩
  have hraw0 := hraw
  obtain ⟨h1, h2, h3, h4, h5⟩ := hraw
  refine ⟨⟨hraw0, htr, hlb, fun k => Or.inl (by omega), fun k => Or.inl (by omega)⟩,
    fun n _ _ => ⟨hraw0, htr, fun k => Or.inl (by omega), fun k => Or.inl (by omega)⟩, ?_, ?_, ?_⟩
  · rintro n ⟨-, -, -, hpass⟩ hn
    rcases scan_step ht hraw0 htr hlb (n := n) (by omega) lb hpass with ⟨u, a, b⟩ | ⟨a, b⟩
    · exact Or.inl ⟨u, a, by omega, b⟩
    · exact Or.inr ⟨a, hraw0, htr, hlb, b⟩
  · rintro n ⟨-, -, hpass⟩ hn
    rcases scan_step ht hraw0 htr hlb (n := n) (by omega) 0 hpass with ⟨u, a, b⟩ | ⟨a, b⟩
    · exact Or.inl ⟨u, a, by omega, b⟩
    · exact Or.inr ⟨a, hraw0, htr, b⟩
  · rintro n n' ⟨-, -, -, p1, p2⟩ hn ⟨-, -, q1, q2⟩ hn'
    have r := (poolp_iff ..).1 hp
    obtain ⟨t1, t2, t3⟩ := htr
    have hall : ∀ k < size, items.has k = true := by
      intro k hk
      refine (t2 k).1 ⟨⟨by omega, by omega⟩, ?_⟩
      by_cases hkl : k < lb
      · exact (q1 k).resolve_left (by omega)
      · exact (p1 k).resolve_left (by omega)
    refine ⟨?_, ?_, hp⟩
    · apply (GMap.length_le_of_keys_lt r.distinct r.keys_lt).2.2
      intro k hk
      have := hall k hk
      rw [GMap.has, Option.isSome_iff_ne_none] at this
      exact this
    · refine C79_lemmas.2.2.2.2 dflt items ts time exp t1 t3 fun k => ?_
      by_cases hk : k < size
      · right
        by_cases hkl : k < lb
        · exact (q2 k).resolve_left (by omega)
        · exact (p2 k).resolve_left (by omega)
      · left
        intro h
        have := ((t2 k).2 h).1.2
        omega

/-- C79: the predicate holds after every sequence of calls that meet the requirements. -/
theorem C79_always (dflt size exp : Nat) (ops : List IndexPool.Op)
    (h : ∀ op ∈ ops, IndexPoolSpec.Pre size (IndexPool.callOf op)) :
    ∃ p p' rs items, IndexPool.alloc size exp = some p ∧ IndexPool.run p ops = some (p', rs) ∧
      poolp dflt p' size exp items := by
  obtain ⟨p, hp, r⟩ := IndexPool.alloc_rep size exp
  obtain ⟨p', rs, items, h1, h2, -⟩ := IndexPool.run_refines ops r h
  exact ⟨p, p', rs, items, hp, h1, (poolp_iff ..).2 h2⟩

/-- C79, the allocator (memory_alloc.c:37-93): if what memory_alloc.c:20-27 assumes holds at a call, the contract does, and
the assumption holds again afterwards; it also survives stores to other memory than that which is still free. -/
theorem C79_allocator (s : MemoryAlloc.State) (h : globalsInvariant s) :
    (∀ count size addr s', count * size ≤ 2 ^ 64 - 1 → MemoryAlloc.alloc s count size = some (addr, s') →
      (∀ i < count * size, s'.mem (addr + i) = 0) ∧ addr + count * size ≤ 2 ^ 64 - 1 ∧ addr ≠ 0 ∧
      addr % (size + 64 - size % 64) = 0 ∧ globalsInvariant s' ∧
      -- what is returned is no longer free
      s'.memory = s.memory ∧ s.memory + s.usedLen ≤ addr ∧ addr + count * size ≤ s'.memory + s'.usedLen) ∧
    ∀ a v, ¬ (s.memory + s.usedLen ≤ a ∧ a < s.memory + MemoryAlloc.OS_MEMORY_SIZE) →
      globalsInvariant (MemoryAlloc.write s a v) := by
  have hsize : MemoryAlloc.OS_MEMORY_SIZE = 268435456 := rfl
  obtain ⟨h1, h2, h3, h4⟩ := h
  rw [hsize] at h2 h3 h4 ⊢
  refine ⟨fun count size addr s' hc ha => ?_, fun a v ha => ⟨h1, h2, h3, fun i hi hi' => ?_⟩⟩
  · have hcs := C05.alloc_cases s count size h3 hc
    simp only at hcs
    rw [ha] at hcs
    split at hcs
    · rename_i hfit
      cases hcs
      have hle := C05.le_alignUp (s.memory + s.usedLen) (C05.alignment size) (C05.alignment_pos size)
      have hdv := C05.dvd_alignUp (s.memory + s.usedLen) (C05.alignment size)
      generalize C05.alignUp (s.memory + s.usedLen) (C05.alignment size) = addr at *
      refine ⟨fun i hi => ?_, by omega, by omega, hdv, ⟨h1, by rw [hsize]; exact h2, ?_, ?_⟩, rfl, hle, ?_⟩
      · have := h4 (addr + i - s.memory) (by omega) (by omega)
        rw [show s.memory + (addr + i - s.memory) = addr + i by omega] at this
        exact this
      · rw [hsize]; dsimp only; omega
      · intro i hi hi'
        dsimp only at hi ⊢
        rw [hsize] at hi'
        exact h4 i (by omega) hi'
      · dsimp only; omega
    · cases hcs
  · rw [hsize] at hi'
    show Memory.store s.mem a v (s.memory + i) = 0
    have hi : s.usedLen ≤ i := hi
    rw [Memory.store, if_neg (by omega)]
    exact h4 i hi hi'

/-- C79: the assumption of the allocator holds at every call, if it does at the first one and the program writes only to
blocks that it was given. Not proved, because false (`C79_assumption_metal`): that it does at the first one on every
platform. -/
theorem C79_assumption_partial (base : Nat) (s : MemoryAlloc.State) (bs : List C05.Block) (h : C05.Hist base s bs) :
    globalsInvariant s := by
  obtain ⟨h1, h2, h3, h4, h5, -⟩ := C05.hist_inv h
  subst h1
  exact ⟨h2, h3, h4, fun i hi hi' => h5 _ (by omega) (Nat.add_lt_add_left hi' _)⟩

/-- C79: on bare metal, where the symbol `os_memory` is the array itself, the assumption does not hold at the first call. -/
theorem C79_assumption_metal (array : Nat) (mem : Nat → UInt8) (hz : ∀ a, array ≤ a → a < array + 268435456 → mem a = 0) :
    ¬ globalsInvariant (MemoryBoot.view (MemoryBoot.metal array mem)) := by
  rintro ⟨h, -⟩
  apply h
  show MemoryBoot.loadPtr mem array = 0
  exact loadPtr_zero fun x x1 x2 => hz x x1 (by omega)

/-! Examples. -/

/-- The predicate of a pool of three indices, of which the second was borrowed at 5; with it, the other theorems on the pool
apply to a pool in which the search starts in the middle. -/
example : poolpRaw ⟨[TIME_MAX, 5, TIME_MAX], 3, 10, 1⟩ 3 10 1 [TIME_MAX, 5, TIME_MAX] ∧
    poolpTruths 0 [TIME_MAX, 5, TIME_MAX] [(1, 5)] ∧ poolp 0 ⟨[TIME_MAX, 5, TIME_MAX], 3, 10, 1⟩ 3 10 [(1, 5)] := by
  have h : poolpTruths 0 [TIME_MAX, 5, TIME_MAX] [(1, 5)] := by
    rw [truths_iff]
    refine ⟨by simp [GMap.Distinct], fun k => ?_⟩
    match k with
    | 0 => rfl
    | 1 => rfl
    | 2 => rfl
    | k + 3 => simp [GMap.get]
  exact ⟨⟨rfl, rfl, rfl, rfl, rfl⟩, h, _, _, ⟨rfl, rfl, rfl, rfl, rfl⟩, h, by decide⟩

/-- A borrowed index that expired: at 16, the index 1 is found by the first iteration of the first loop. -/
example : IndexPool.scan ⟨[TIME_MAX, 5, TIME_MAX], 3, 10, 1⟩ 16 2 1 = some (some (1, true)) ∧
    firstInv 0 ⟨[TIME_MAX, 5, TIME_MAX], 3, 10, 1⟩ 3 10 1 [TIME_MAX, 5, TIME_MAX] [(1, 5)] 15 2 ∧
    allocInv 3 1 [7, TIME_MAX, TIME_MAX] := by
  refine ⟨by decide, ⟨⟨rfl, rfl, rfl, rfl, rfl⟩, ?_, by decide, fun k => ?_, fun k => ?_⟩, by decide, rfl, by simp [drop, allEq]⟩
  · rw [truths_iff]
    refine ⟨by simp [GMap.Distinct], fun k => ?_⟩
    match k with
    | 0 => rfl
    | 1 => rfl
    | 2 => rfl
    | k + 3 => simp [GMap.get]
  · by_cases h : k = 1
    · subst h; right; rw [nthEq, nth_nat]; decide
    · left; omega
  · by_cases h : k = 1
    · subst h; right; rw [nth_nat]; decide
    · left; omega

/-- An allocator with the assumption, from which a block is taken. -/
example : globalsInvariant ⟨4096, 40, fun _ => 0⟩ ∧
    ∃ s', MemoryAlloc.alloc ⟨4096, 40, fun _ => 0⟩ 12 1 = some (4160, s') :=
  ⟨⟨by decide, by decide, by decide, fun _ _ _ => rfl⟩, _, rfl⟩

end Verif.Props
