/- Proofs about the memory and configuration helpers. -/
import Verif.Env.Memory

namespace Verif

theorem bytesAt_length (m : Mem) (a n : Nat) : (bytesAt m a n).length = n := by simp [bytesAt]

theorem bytesAt_eq_iff (m m' : Mem) (a b n : Nat) :
    bytesAt m a n = bytesAt m' b n ↔ ∀ i < n, m (a + i) = m' (b + i) := by
  simp [bytesAt]

namespace Memory

theorem eqLoop_iff (m : Mem) (a b k n : Nat) :
    eqLoop m a b k n = true ↔ ∀ i < k, m (a + (n + i)) = m (b + (n + i)) := by
  induction k generalizing n with
  | zero => simp [eqLoop]
  | succ k ih =>
    unfold eqLoop
    by_cases h : m (a + n) = m (b + n)
    · simp only [h, ne_eq, not_true_eq_false, ↓reduceIte, ih]
      constructor
      · intro hh i hi
        cases i with
        | zero => simpa using h
        | succ i => have := hh i (by omega); rwa [show n + 1 + i = n + (i + 1) by omega] at this
      · intro hh i hi
        have := hh (i + 1) (by omega)
        rwa [show n + (i + 1) = n + 1 + i by omega] at this
    · simp only [ne_eq, h, not_false_eq_true, ↓reduceIte, Bool.false_eq_true, false_iff]
      intro hh
      exact h (by simpa using hh 0 (by omega))

theorem memEq_iff (m : Mem) (a b n : Nat) :
    memEq m a b n = true ↔ bytesAt m a n = bytesAt m b n := by
  rw [memEq, eqLoop_iff, bytesAt_eq_iff]; simp

theorem hashWords_congr (m m' : Mem) : ∀ (n : Nat) (h : BitVec 32) (a b : Nat),
    (∀ i < n, m (a + i) = m' (b + i)) →
    ∃ h' k r, k + r = n ∧ hashWords m h a n = (h', a + k, r) ∧ hashWords m' h b n = (h', b + k, r) := by
  intro n
  induction n using Nat.strong_induction_on with
  | _ n ih =>
    intro h a b hh
    by_cases h4 : 4 ≤ n
    · have e : load32 m a = load32 m' b := by
        have h0 := hh 0 (by omega); have h1 := hh 1 (by omega)
        have h2 := hh 2 (by omega); have h3 := hh 3 (by omega)
        simp only [Nat.add_zero] at h0
        simp only [load32, h0, h1, h2, h3]
      obtain ⟨h', k, r, hk, e1, e2⟩ := ih (n - 4) (by omega) (mix h (load32 m a)) (a + 4) (b + 4) (by
        intro i hi
        have := hh (4 + i) (by omega)
        rwa [← Nat.add_assoc, ← Nat.add_assoc] at this)
      refine ⟨h', k + 4, r, by omega, ?_, ?_⟩
      · rw [hashWords, if_pos h4, e1, Nat.add_assoc, Nat.add_comm 4]
      · rw [hashWords, if_pos h4, ← e, e2, Nat.add_assoc, Nat.add_comm 4]
    · refine ⟨h, 0, n, by omega, ?_, ?_⟩ <;> rw [hashWords, if_neg h4] <;> simp

theorem hashWords_rest (m : Mem) : ∀ (n : Nat) (h : BitVec 32) (a : Nat), (hashWords m h a n).2.2 < 4 := by
  intro n
  induction n using Nat.strong_induction_on with
  | _ n ih =>
    intro h a
    rw [hashWords]
    split
    · exact ih _ (by omega) _ _
    · show n < 4; omega

theorem hash_congr (m m' : Mem) (a b n : Nat) (hh : bytesAt m a n = bytesAt m' b n) :
    hash m a n = hash m' b n := by
  rw [bytesAt_eq_iff] at hh
  obtain ⟨h', k, r, hk, e1, e2⟩ := hashWords_congr m m' n 0 a b hh
  have hr : r < 4 := by have := hashWords_rest m n 0 a; rw [e1] at this; exact this
  have l8 : ∀ j, k + j < n → load8 m (a + k + j) = load8 m' (b + k + j) := by
    intro j hj
    simp only [load8, Nat.add_assoc, hh _ hj]
  have l16 : k + 1 < n → load16 m (a + k) = load16 m' (b + k) := by
    intro hj
    simp only [load16, Nat.add_assoc, hh k (by omega), hh (k + 1) hj]
  simp only [hash, e1, e2]
  obtain rfl | rfl | rfl | rfl : r = 0 ∨ r = 1 ∨ r = 2 ∨ r = 3 := by omega
  · simp
  · have := l8 0 (by omega); simp only [Nat.add_zero] at this; simp [this]
  · have := l16 (by omega); simp [this]
  · have := l16 (by omega); have h2 := l8 2 (by omega); simp [this, h2]

theorem copyLoop_spec (src dst : Nat) : ∀ (k n : Nat) (m : Mem),
    (∀ i < k, ∀ j < k, src + (n + i) ≠ dst + (n + j)) →
    (∀ i < k, copyLoop m src dst k n (dst + (n + i)) = m (src + (n + i))) ∧
    (∀ x, (∀ i < k, x ≠ dst + (n + i)) → copyLoop m src dst k n x = m x) := by
  intro k
  induction k with
  | zero => intro n m _; simp [copyLoop]
  | succ k ih =>
    intro n m hd
    obtain ⟨h1, h2⟩ := ih (n + 1) (store m (dst + n) (m (src + n))) (by
      intro i hi j hj
      have := hd (i + 1) (by omega) (j + 1) (by omega)
      rwa [show n + (i + 1) = n + 1 + i by omega, show n + (j + 1) = n + 1 + j by omega] at this)
    constructor
    · intro i hi
      cases i with
      | zero =>
        rw [copyLoop, h2]
        · simp [store]
        · intro i hi; omega
      | succ i =>
        rw [show n + (i + 1) = n + 1 + i by omega, copyLoop, h1 i (by omega), store, if_neg]
        have := hd (i + 1) hi 0 (by omega)
        rwa [show n + (i + 1) = n + 1 + i by omega, Nat.add_zero] at this
    · intro x hx
      rw [copyLoop, h2, store, if_neg]
      · simpa using hx 0 (by omega)
      · intro i hi
        have := hx (i + 1) (by omega)
        rwa [show n + (i + 1) = n + 1 + i by omega] at this

end Memory

namespace Config

theorem charAt_of_le {s : List UInt8} {n : Nat} (h : n ≤ s.length) :
    charAt s n = some (s.getD n 0) := by
  unfold charAt
  rcases Nat.lt_or_eq_of_le h with h | h
  · simp [h]
  · subst h; simp

theorem cmpLoop_eq {a b : List UInt8} (ha : 0 ∉ a) (hb : 0 ∉ b) :
    ∀ k n, n + k = a.length + 1 → n ≤ a.length → n ≤ b.length → a.take n = b.take n →
      cmpLoop a b k n = some (decide (a = b)) := by
  intro k
  induction k with
  | zero => intro n h1 h2; omega
  | succ k ih =>
    intro n h1 h2 h3 h4
    rw [cmpLoop, charAt_of_le h2, charAt_of_le h3]
    simp only [Option.bind_eq_bind, Option.bind_some]
    by_cases hn : n < a.length <;> by_cases hm : n < b.length
    · have ea : a.getD n 0 = a[n] := by simp [hn]
      have eb : b.getD n 0 = b[n] := by simp [hm]
      have nz : a[n] ≠ 0 := fun h => ha (h ▸ List.getElem_mem hn)
      rw [ea, eb]
      by_cases hab : a[n] = b[n]
      · rw [if_neg (by simpa using hab), if_neg nz]
        refine ih (n + 1) (by omega) (by omega) (by omega) ?_
        rw [List.take_succ_eq_append_getElem hn, List.take_succ_eq_append_getElem hm, h4, hab]
      · rw [if_pos hab]
        have : a ≠ b := by rintro rfl; exact hab rfl
        simp [this]
    · have ea : a.getD n 0 = a[n] := by simp [hn]
      have eb : b.getD n 0 = 0 := by simp; rw [List.getElem?_eq_none (by omega)]; rfl
      have nz : a[n] ≠ 0 := fun h => ha (h ▸ List.getElem_mem hn)
      rw [ea, eb, if_pos nz]
      have : a ≠ b := by rintro rfl; omega
      simp [this]
    · have ea : a.getD n 0 = 0 := by simp; rw [List.getElem?_eq_none (by omega)]; rfl
      have eb : b.getD n 0 = b[n] := by simp [hm]
      have nz : b[n] ≠ 0 := fun h => hb (h ▸ List.getElem_mem hm)
      rw [ea, eb, if_pos (Ne.symm nz)]
      have : a ≠ b := by rintro rfl; omega
      simp [this]
    · have ea : a.getD n 0 = 0 := by simp; rw [List.getElem?_eq_none (by omega)]; rfl
      have eb : b.getD n 0 = 0 := by simp; rw [List.getElem?_eq_none (by omega)]; rfl
      rw [ea, eb, if_neg (by simp), if_pos rfl]
      have e1 : a.take n = a := List.take_of_length_le (by omega)
      have e2 : b.take n = b := List.take_of_length_le (by omega)
      rw [e1, e2] at h4
      simp [h4]

theorem stringCompare_eq {a b : List UInt8} (ha : 0 ∉ a) (hb : 0 ∉ b) :
    stringCompare a b = some (decide (a = b)) :=
  cmpLoop_eq ha hb _ 0 (by omega) (by omega) (by omega) (by simp)

theorem tryGet_eq (items : List (List UInt8 × Nat)) (name : List UInt8)
    (hi : ∀ e ∈ items, 0 ∉ e.1) (hn : 0 ∉ name) :
    tryGet items name = some ((items.find? (fun e => decide (e.1 = name))).map Prod.snd) := by
  induction items with
  | nil => rfl
  | cons e t ih =>
    obtain ⟨s, v⟩ := e
    simp only [tryGet]
    rw [stringCompare_eq (hi (s, v) (by simp)) hn]
    by_cases h : s = name
    · simp [h]
    · simp [h]
      rw [ih (fun e he => hi e (by simp [he]))]

end Config
end Verif
