/- Property C07: the consistent hash table. -/
import Verif.Env.ChtProofs
import Verif.Env.IndexPoolProofs

set_option autoImplicit false

namespace Verif.Props
open Verif.Cht Verif.IndexPool

/-- C07 full claim: for every height and capacity cht_alloc's precondition accepts,
allocation succeeds and row `b` of the table is a permutation of the backends. -/
def C07_rows_claim : Prop :=
  ∀ h cap : Nat, 0 < cap → cap < h → h < 40000 →
    ∃ c, Cht.alloc h cap = some c ∧ ∀ b < h, ∃ r : List Nat, r.Perm (List.range cap) ∧
      ∀ k < cap, c.data[b * cap + k]? = r[k]?

/-- The claim is false: with height 4 (allowed by the precondition, which cannot
require a prime) and 3 backends, filling the table writes past its end. -/
theorem C07_rows_claim_false_for_composite_height : ¬ C07_rows_claim := by
  intro h
  obtain ⟨c, hc, _⟩ := h 4 3 (by decide) (by decide) (by decide)
  have : Cht.alloc 4 3 = none := by decide
  rw [this] at hc
  cases hc

theorem coprime_of_small {h cap : Nat} (hcap : cap < h)
    (hs : ∀ s, 1 ≤ s → s ≤ cap → Nat.Coprime h s) : ∀ j < cap, Nat.Coprime h (j % (h - 1) + 1) := by
  intro j hj
  rw [Nat.mod_eq_of_lt (by omega)]
  exact hs (j + 1) (by omega) (by omega)

/-- C07, for heights without a common factor with any number up to the capacity:
every row lists every backend exactly once. Missing from the full claim: composite
heights with a factor not above the capacity, for which it is false. -/
theorem C07_rows_partial (h cap : Nat) (hcap : cap < h) (hh : h < 40000)
    (hs : ∀ s, 1 ≤ s → s ≤ cap → Nat.Coprime h s) :
    ∃ c, Cht.alloc h cap = some c ∧ ∀ b < h, ∃ r : List Nat, r.Perm (List.range cap) ∧
      ∀ k < cap, c.data[b * cap + k]? = r[k]? := by
  obtain ⟨c, h1, _, _, h2⟩ := alloc_spec hcap hh (coprime_of_small hcap hs)
  exact ⟨c, h1, h2⟩

/-- Every prime height qualifies. -/
theorem C07_rows_prime_height_partial (h cap : Nat) (hcap : cap < h) (hh : h < 40000) (hp : Nat.Prime h) :
    ∃ c, Cht.alloc h cap = some c ∧ ∀ b < h, ∃ r : List Nat, r.Perm (List.range cap) ∧
      ∀ k < cap, c.data[b * cap + k]? = r[k]? := by
  refine C07_rows_partial h cap hcap hh (fun s h1 h2 => ?_)
  exact (Nat.Prime.coprime_iff_not_dvd hp).2 (fun hd => absurd (Nat.le_of_dvd (by omega) hd) (by omega))

example : Nat.Prime 5 ∧ ∃ c, Cht.alloc 5 3 = some c ∧ c.data =
    [0, 2, 1,  1, 0, 2,  2, 0, 1,  1, 2, 0,  0, 1, 2] := ⟨by decide, _, rfl, by decide⟩

/-- C07 (lookup): on such a table, with any pool reachable by a legal history, for
every key hash and time: the lookup does not read out of bounds; it returns a
backend below the capacity that is in use, if there is one, and false otherwise;
and any other pool and time for which the same backends are in use gives the same
answer. -/
theorem C07_find_partial (h cap : Nat) (hcap : cap < h) (hh : h < 40000)
    (hs : ∀ s, 1 ≤ s → s ≤ cap → Nat.Coprime h s) (c : Cht) (hc : Cht.alloc h cap = some c)
    (size exp : Nat) (ops : List Op) (hpre : ∀ op ∈ ops, IndexPoolSpec.Pre size (callOf op))
    (p0 p : Pool) (rs : List Res) (h0 : IndexPool.alloc size exp = some p0) (h1 : run p0 ops = some (p, rs))
    (hash time : Nat) :
    ∃ r, find c hash p time = some r ∧
      (∀ i, r = some i → i < cap ∧ used p time i = some true) ∧
      (r = none → ∀ i < cap, used p time i = some false) ∧
      (∀ p' time', (∀ i, used p' time' i = used p time i) → find c hash p' time' = some r) := by
  obtain ⟨c', hc', hch, hcc, hrows⟩ := alloc_spec hcap hh (coprime_of_small hcap hs)
  rw [hc] at hc'; cases hc'
  obtain ⟨q0, hq0, r0⟩ := alloc_rep size exp
  rw [h0] at hq0; cases hq0
  obtain ⟨q, qs, items, hq, rep, _, _⟩ := run_refines ops r0 hpre
  rw [h1] at hq; cases hq
  have hlive : ∃ live : Nat → Bool, ∀ x, used p time x = some (live x) := by
    refine ⟨fun x => match items.get x with | none => false | some v => IndexPoolSpec.young time exp v, ?_⟩
    intro x
    obtain ⟨_, y, _, hx, _, hy⟩ := step_refines rep (.used time x) trivial
    simp only [step, Option.bind_eq_bind] at hx
    cases hb : used p time x with
    | none => simp [hb] at hx
    | some b =>
      simp [hb] at hx
      obtain ⟨rfl, rfl⟩ := hx
      rw [hy.2]
      beta_reduce
      cases items.get x <;> rfl
  obtain ⟨live, hlive⟩ := hlive
  obtain ⟨row, hperm, hrow⟩ := hrows (hash % h) (Nat.mod_lt _ (by omega))
  have hlen : row.length = cap := by simpa using hperm.length_eq
  have hfind : ∀ p' time', (∀ i, used p' time' i = used p time i) → find c hash p' time' = some (row.find? live) := by
    intro p' time' hsame
    have := findLoop_spec c p' time' (hash % h * cap) cap row live hrow hlen (fun x => by rw [hsame, hlive]) cap 0 (by omega)
    simpa [find, loop, hch, hcc] using this
  refine ⟨row.find? live, hfind p time (fun _ => rfl), ?_, ?_, hfind⟩
  · intro i hi
    have h2 := List.find?_some hi
    have h3 := List.mem_of_find?_eq_some hi
    exact ⟨List.mem_range.1 (hperm.mem_iff.1 h3), by rw [hlive, h2]⟩
  · intro hn i hi
    have := List.find?_eq_none.1 hn i (hperm.mem_iff.2 (List.mem_range.2 hi))
    rw [hlive]
    cases hl : live i
    · rfl
    · exact absurd hl this

/-- A lookup that skips a dead preferred backend. -/
example : ∃ c p0 p rs, Cht.alloc 5 3 = some c ∧ IndexPool.alloc 3 10 = some p0 ∧
    run p0 [.borrow 5, .borrow 6, .giveBack 0] = some (p, rs) ∧ find c 0 p 7 = some (some 1) :=
  ⟨_, _, _, _, rfl, rfl, rfl, rfl⟩

end Verif.Props
