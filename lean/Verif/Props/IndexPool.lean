/- Properties C01 and C02: the index pool. -/
import Verif.Env.IndexPoolProofs

namespace Verif.Props
open Verif.IndexPool Verif.IndexPoolSpec

/-- C01: every history of calls that meet their preconditions, on a freshly
allocated pool of any size, runs without undefined behaviour and its answers
are exactly those allowed by the contract in index_pool.h. -/
theorem C01_index_pool_refines_contract (size exp : Nat) (ops : List Op)
    (hpre : ∀ op ∈ ops, Pre size (callOf op)) :
    ∃ p p' rs items',
      alloc size exp = some p ∧ run p ops = some (p', rs) ∧ rs.length = ops.length ∧
      IndexPoolSpec.Run size exp [] ((ops.map callOf).zip (rs.map answerOf)) items' := by
  obtain ⟨p, hp, r⟩ := alloc_rep size exp
  obtain ⟨p', rs, items', h1, _, h3, h4⟩ := run_refines ops r hpre
  exact ⟨p, p', rs, items', hp, h1, h3, h4⟩

/-- The hypotheses of C01 are met by a history with a free borrow, a refused
borrow, an expiry and a return. -/
example : ∀ op ∈ [Op.borrow 5, .borrow 6, .borrow 100, .used 100 0, .giveBack 0, .refresh 7 0],
    Pre 1 (callOf op) := by
  simp [Pre, callOf, timeMax]

example : ∃ p p', alloc 1 10 = some p ∧
    run p [Op.borrow 5, .borrow 6, .borrow 100, .used 100 0, .giveBack 0, .used 100 0] =
      some (p', [.borrowed 0 false, .notBorrowed, .borrowed 0 true, .bool true, .unit, .bool false]) :=
  ⟨_, _, rfl, rfl⟩

/-- C02: after any history, if a borrow at time `t` hands out index `i`, then
`i` was not in use at `t` just before, it is in use at `t` right after, and
whether any other index is in use, at any time, is unchanged. -/
theorem C02_live_lease_not_handed_out_twice (size exp : Nat) (ops : List Op)
    (hpre : ∀ op ∈ ops, Pre size (callOf op)) (t : Nat) (ht : t < timeMax)
    (p0 p p' : Pool) (rs : List Res) (i : Nat) (u : Bool)
    (h0 : alloc size exp = some p0) (h1 : run p0 ops = some (p, rs))
    (h2 : step p (.borrow t) = some (p', .borrowed i u)) :
    i < size ∧ used p t i = some false ∧ used p' t i = some true ∧
      ∀ t' j, j ≠ i → used p' t' j = used p t' j := by
  obtain ⟨q0, hq0, r0⟩ := alloc_rep size exp
  obtain rfl : q0 = p0 := by rw [hq0] at h0; cases h0; rfl
  obtain ⟨q, qs, items, hq, r, _, _⟩ := run_refines ops r0 hpre
  obtain ⟨rfl, rfl⟩ : q = p ∧ qs = rs := by rw [hq] at h1; cases h1; exact ⟨rfl, rfl⟩
  obtain ⟨q', res, items', hs, r', hpost⟩ := step_refines r (.borrow t) ht
  obtain ⟨rfl, rfl⟩ : q' = p' ∧ res = .borrowed i u := by rw [hs] at h2; cases h2; exact ⟨rfl, rfl⟩
  obtain ⟨_, hitems, hi, hu⟩ := hpost
  -- what `used` answers, in terms of the abstract items
  have hused : ∀ {pp its}, Rep size exp pp its → ∀ t' j, used pp t' j =
      some (match its.get j with | none => false | some v => young t' exp v) := by
    intro pp its rr t' j
    obtain ⟨x, y, z, hx, _, hy⟩ := step_refines rr (.used t' j) trivial
    simp only [step, Option.bind_eq_bind] at hx
    cases hb : used pp t' j with
    | none => simp [hb] at hx
    | some b =>
      simp [hb] at hx
      obtain ⟨rfl, rfl⟩ := hx
      rw [hy.2]; rfl
  refine ⟨hi, ?_, ?_, ?_⟩
  · rw [hused r]
    cases u
    · simp at hu; rw [hu]
    · simp at hu; obtain ⟨old, ho, hy⟩ := hu; simp only [ho, hy]
  · rw [hused r', hitems, GMap.get_set, if_pos rfl]
    simp [young]
  · intro t' j hj
    rw [hused r', hused r, hitems, GMap.get_set, if_neg (Ne.symm hj)]

/-- C02 is not vacuous: a pool of two indices hands out both, then reuses the
expired one. -/
example : ∃ p0 p rs p', alloc 2 10 = some p0 ∧
    run p0 [.borrow 5, .borrow 6, .refresh 50 0] = some (p, rs) ∧
    step p (.borrow 55) = some (p', .borrowed 1 true) := ⟨_, _, _, _, rfl, rfl, rfl⟩

end Verif.Props
