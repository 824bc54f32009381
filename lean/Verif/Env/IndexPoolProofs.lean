/- Refinement proof: index_pool.c implements the contract of index_pool.h. -/
import Verif.Env.IndexPool
import Verif.Spec.IndexPool

namespace Verif.IndexPool
open IndexPoolSpec

/-- Representation relation between the C structure and the abstract items. -/
structure Rep (size exp : Nat) (p : Pool) (items : GMap Nat Nat) : Prop where
  size_eq : p.size = size
  exp_eq : p.exp = exp
  len : p.timestamps.length = size
  lbi : p.lastBorrowed ≤ size
  distinct : items.Distinct
  get : ∀ k, items.get k =
    (p.timestamps[k]?).bind (fun t => if t = TIME_MAX then none else some t)

theorem fill_spec : ∀ n (ts : List Nat), n ≤ ts.length →
    ∃ ts', fill n ts = some ts' ∧ ts'.length = ts.length ∧
      ∀ k, ts'[k]? = if k < n then some TIME_MAX else ts[k]? := by
  intro n
  induction n with
  | zero => intro ts _; exact ⟨ts, rfl, rfl, by simp⟩
  | succ n ih =>
    intro ts h
    have hlt : n < ts.length := h
    obtain ⟨ts', h1, h2, h3⟩ := ih (ts.set n TIME_MAX) (by simp; omega)
    refine ⟨ts', by simp [fill, hlt, h1], by simpa using h2, ?_⟩
    intro k
    rw [h3 k, List.getElem?_set]
    by_cases hk : k < n
    · simp [hk, Nat.lt_succ_of_lt hk]
    · by_cases hkn : n = k
      · subst hkn; simp [hlt]
      · have : ¬ k < n + 1 := by omega
        simp [hk, hkn, this]

theorem alloc_rep (size exp : Nat) :
    ∃ p, alloc size exp = some p ∧ Rep size exp p [] := by
  obtain ⟨ts, h1, h2, h3⟩ := fill_spec size (List.replicate size 0) (by simp)
  refine ⟨⟨ts, size, exp, 0⟩, by simp [alloc, h1], ?_⟩
  refine ⟨rfl, rfl, by simpa using h2, Nat.zero_le _, GMap.distinct_nil, ?_⟩
  intro k
  simp only [GMap.get, h3 k]
  by_cases hk : k < size
  · simp [hk]
  · simp [hk]

/-- index `n` can be handed out at `time` (free or expired), with its flag. -/
def Avail (p : Pool) (time n : Nat) (u : Bool) : Prop :=
  ∃ t, p.timestamps[n]? = some t ∧
    ((t = TIME_MAX ∧ u = false) ∨ (t ≠ TIME_MAX ∧ p.exp ≤ time ∧ t < time - p.exp ∧ u = true))

def Busy (p : Pool) (time n : Nat) : Prop :=
  ∃ t, p.timestamps[n]? = some t ∧ t ≠ TIME_MAX ∧ ¬ (p.exp ≤ time ∧ t < time - p.exp)

theorem scan_spec (p : Pool) (time : Nat) : ∀ k n, n + k ≤ p.timestamps.length →
    (∃ i u, scan p time k n = some (some (i, u)) ∧ n ≤ i ∧ i < n + k ∧ Avail p time i u) ∨
    (scan p time k n = some none ∧ ∀ j, n ≤ j → j < n + k → Busy p time j) := by
  intro k
  induction k with
  | zero => intro n _; right; exact ⟨rfl, fun j h1 h2 => by omega⟩
  | succ k ih =>
    intro n h
    have hn : n < p.timestamps.length := by omega
    have hget : p.timestamps[n]? = some p.timestamps[n] := List.getElem?_eq_getElem hn
    by_cases h1 : p.timestamps[n] = TIME_MAX
    · left
      exact ⟨n, false, by simp [scan, hget, h1], le_refl _, by omega, _, hget, Or.inl ⟨h1, rfl⟩⟩
    · by_cases h2 : p.exp ≤ time ∧ p.timestamps[n] < time - p.exp
      · left
        refine ⟨n, true, ?_, le_refl _, by omega, _, hget, Or.inr ⟨h1, h2.1, h2.2, rfl⟩⟩
        simp [scan, hget, h1, h2]
      · have hb : Busy p time n := ⟨_, hget, h1, h2⟩
        have hs : scan p time (k + 1) n = scan p time k (n + 1) := by
          simp only [scan, hget, Option.bind_eq_bind, Option.bind_some, if_neg h1]
          rw [if_neg h2]
        rw [hs]
        rcases ih (n + 1) (by omega) with ⟨i, u, a, b, c, d⟩ | ⟨a, b⟩
        · left; exact ⟨i, u, a, by omega, by omega, d⟩
        · right
          refine ⟨a, fun j h3 h4 => ?_⟩
          by_cases hj : j = n
          · exact hj ▸ hb
          · exact b j (by omega) (by omega)

theorem borrow_spec {p : Pool} (time : Nat) (h1 : p.lastBorrowed ≤ p.size)
    (h2 : p.timestamps.length = p.size) :
    (∃ i u, borrow p time = some (take p time i, some (i, u)) ∧ i < p.size ∧ Avail p time i u) ∨
    (borrow p time = some (p, none) ∧ ∀ j < p.size, Busy p time j) := by
  rcases scan_spec p time (p.size - p.lastBorrowed) p.lastBorrowed (by omega) with
    ⟨i, u, a, b, c, d⟩ | ⟨a, b⟩
  · left; exact ⟨i, u, by simp [borrow, a], by omega, d⟩
  · rcases scan_spec p time p.lastBorrowed 0 (by omega) with ⟨i, u, a', b', c', d'⟩ | ⟨a', b'⟩
    · left; exact ⟨i, u, by simp [borrow, a, a'], by omega, d'⟩
    · right
      refine ⟨by simp [borrow, a, a'], fun j hj => ?_⟩
      by_cases hjl : j < p.lastBorrowed
      · exact b' j (by omega) (by omega)
      · exact b j (by omega) (by omega)

theorem Rep.get_some {size exp p items} (r : Rep size exp p items) {k t}
    (h : p.timestamps[k]? = some t) (ht : t ≠ TIME_MAX) : items.get k = some t := by
  rw [r.get, h]; simp [ht]

theorem Rep.get_none {size exp p items} (r : Rep size exp p items) {k}
    (h : p.timestamps[k]? = some TIME_MAX) : items.get k = none := by
  rw [r.get, h]; simp

theorem Rep.keys_lt {size exp p items} (r : Rep size exp p items) (k : Nat)
    (h : items.get k ≠ none) : k < size := by
  by_contra hk
  apply h
  rw [r.get, List.getElem?_eq_none (by rw [r.len]; omega)]; rfl

theorem Rep.set {size exp p items} (r : Rep size exp p items) {i t : Nat} (hi : i < size)
    (ht : t ≠ TIME_MAX) (l : Nat) (hl : l ≤ size) :
    Rep size exp { p with timestamps := p.timestamps.set i t, lastBorrowed := l } (items.set i t) := by
  refine ⟨r.size_eq, r.exp_eq, by simp [r.len], hl, GMap.distinct_set r.distinct _ _, ?_⟩
  intro k
  rw [GMap.get_set, List.getElem?_set]
  by_cases hk : i = k
  · subst hk; simp [r.len, hi, ht]
  · simp only [hk, ↓reduceIte]; exact r.get k

theorem Rep.remove {size exp p items} (r : Rep size exp p items) {i : Nat} (hi : i < size) :
    Rep size exp { p with timestamps := p.timestamps.set i TIME_MAX } (items.remove i) := by
  refine ⟨r.size_eq, r.exp_eq, by simp [r.len], r.lbi, GMap.distinct_remove r.distinct _, ?_⟩
  intro k
  rw [GMap.get_remove, List.getElem?_set]
  by_cases hk : i = k
  · subst hk; simp [r.len, hi]
  · simp only [hk, ↓reduceIte]; exact r.get k

theorem young_false_iff (t exp v : Nat) : young t exp v = false ↔ exp ≤ t ∧ v < t - exp := by
  unfold young
  by_cases h : t < exp
  · simp [h]
  · simp [h]
    omega

def callOf : Op → Call
  | .borrow t => .borrow t
  | .refresh t i => .refresh t i
  | .used t i => .used t i
  | .giveBack i => .giveBack i

def answerOf : Res → Answer
  | .borrowed i u => .borrowed i u
  | .notBorrowed => .notBorrowed
  | .bool b => .bool b
  | .unit => .unit

theorem timeMax_eq : timeMax = TIME_MAX := by decide

theorem step_refines {size exp p items} (r : Rep size exp p items) (op : Op)
    (hpre : Pre size (callOf op)) :
    ∃ p' res items', step p op = some (p', res) ∧ Rep size exp p' items' ∧
      Post size exp items (callOf op) (answerOf res) items' := by
  cases op with
  | borrow t =>
    have ht : t ≠ TIME_MAX := by
      have : t < timeMax := hpre
      rw [timeMax_eq] at this; omega
    rcases borrow_spec (p := p) t (by rw [r.size_eq]; exact r.lbi) (by rw [r.size_eq]; exact r.len) with
      ⟨i, u, hb, hi, tt, htt, hav⟩ | ⟨hb, hbusy⟩
    · rw [r.size_eq] at hi
      refine ⟨take p t i, .borrowed i u, items.set i t, by simp [step, hb], ?_, ?_⟩
      · exact r.set hi ht i (le_of_lt hi)
      · have hu : (if u then ∃ old, items.get i = some old ∧ young t exp old = false
            else items.get i = none) := by
          rcases hav with ⟨rfl, rfl⟩ | ⟨h1, h2, h3, rfl⟩
          · simp [r.get_none htt]
          · simp only [↓reduceIte]
            exact ⟨tt, r.get_some htt h1, by rw [young_false_iff, ← r.exp_eq]; exact ⟨h2, h3⟩⟩
        refine ⟨?_, rfl, hi, hu⟩
        intro hlen
        have hall := ((GMap.length_le_of_keys_lt r.distinct r.keys_lt).2.1 hlen) i hi
        have hut : u = true := by
          cases u
          · simp at hu; exact absurd hu hall
          · rfl
        subst hut
        refine ⟨?_, rfl⟩
        rw [Bool.eq_false_iff]
        intro hf
        rw [GMap.forallB_iff r.distinct] at hf
        simp only [↓reduceIte] at hu
        obtain ⟨old, ho, hy⟩ := hu
        have := hf i old ho
        rw [hy] at this; cases this
    · refine ⟨p, .notBorrowed, items, by simp [step, hb], r, ?_⟩
      refine ⟨?_, ?_, rfl⟩
      · apply (GMap.length_le_of_keys_lt r.distinct r.keys_lt).2.2
        intro k hk
        obtain ⟨tt, h1, h2, _⟩ := hbusy k (by rw [r.size_eq]; exact hk)
        rw [r.get_some h1 h2]; simp
      · rw [GMap.forallB_iff r.distinct]
        intro k v hg
        have hk : k < size := r.keys_lt k (by rw [hg]; simp)
        obtain ⟨tt, h1, h2, h3⟩ := hbusy k (by rw [r.size_eq]; exact hk)
        have : tt = v := by
          have := r.get_some h1 h2; rw [hg] at this; cases this; rfl
        subst this
        by_contra hy
        rw [Bool.not_eq_true, young_false_iff, ← r.exp_eq] at hy
        exact h3 hy
  | refresh t i =>
    obtain ⟨h1, h2⟩ := hpre
    have ht : t ≠ TIME_MAX := by rw [timeMax_eq] at h1; omega
    refine ⟨{ p with timestamps := p.timestamps.set i t }, .unit, items.set i t, ?_, ?_, rfl⟩
    · simp [step, refresh, r.len, h2]
    · exact r.set h2 ht p.lastBorrowed r.lbi
  | used t i =>
    by_cases hi : i < size
    · have hlt : i < p.timestamps.length := by rw [r.len]; exact hi
      have hget : p.timestamps[i]? = some p.timestamps[i] := List.getElem?_eq_getElem hlt
      have hge : ¬ (size ≤ i) := by omega
      by_cases h1 : p.timestamps[i] = TIME_MAX
      · refine ⟨p, .bool false, items, ?_, r, rfl, ?_⟩
        · simp [step, used, r.size_eq, hge, hget, h1]
        · rw [r.get_none (h1 ▸ hget)]
      · have hg := r.get_some hget h1
        by_cases h2 : p.exp ≤ t ∧ p.timestamps[i] < t - p.exp
        · refine ⟨p, .bool false, items, ?_, r, rfl, ?_⟩
          · simp [step, used, r.size_eq, hge, hget, h1, h2]
          · rw [hg]; symm; rw [young_false_iff, ← r.exp_eq]; exact h2
        · refine ⟨p, .bool true, items, ?_, r, rfl, ?_⟩
          · have : used p t i = some true := by
              unfold used
              rw [if_neg (by rw [r.size_eq]; exact hge), hget]
              simp only [Option.bind_eq_bind, Option.bind_some, if_neg h1]
              rw [if_neg h2]
            simp [step, this]
          · rw [hg]; symm
            by_contra hy
            simp only [Bool.not_eq_true, young_false_iff] at hy
            rw [← r.exp_eq] at hy
            exact h2 hy
    · refine ⟨p, .bool false, items, ?_, r, rfl, ?_⟩
      · have : size ≤ i := by omega
        simp [step, used, r.size_eq, this]
      · have : items.get i = none := by
          by_contra h; exact hi (r.keys_lt i h)
        rw [this]
  | giveBack i =>
    have hi : i < size := hpre
    refine ⟨{ p with timestamps := p.timestamps.set i TIME_MAX }, .unit, items.remove i, ?_, r.remove hi, rfl⟩
    simp [step, giveBack, r.len, hi]

theorem run_refines {size exp} : ∀ (ops : List Op) {p items}, Rep size exp p items →
    (∀ op ∈ ops, Pre size (callOf op)) →
    ∃ p' rs items', run p ops = some (p', rs) ∧ Rep size exp p' items' ∧ rs.length = ops.length ∧
      IndexPoolSpec.Run size exp items ((ops.map callOf).zip (rs.map answerOf)) items' := by
  intro ops
  induction ops with
  | nil => intro p items r _; exact ⟨p, [], items, rfl, r, rfl, .nil _⟩
  | cons op ops ih =>
    intro p items r hpre
    obtain ⟨p', res, items', h1, r', h2⟩ := step_refines r op (hpre op (by simp))
    obtain ⟨p'', rs, items'', h3, r'', h4, h5⟩ := ih r' (fun o ho => hpre o (by simp [ho]))
    refine ⟨p'', res :: rs, items'', by simp [run, h1, h3], r'', by simp [h4], ?_⟩
    exact .cons h2 h5

end Verif.IndexPool
