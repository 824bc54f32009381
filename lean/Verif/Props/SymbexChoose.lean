import Verif.Props.Symbex

/-!
# C38: the search over `choose`

When a specification calls `choose`, the search finds a working assignment of distinct objects if
there is one. False in general, see `C38_assertion_not_retried` and `C38_duplicates_abort`; what holds
is in `C38_found`, `C38_exhausted`, `C38_terminates` and `C38_search_partial`.
-/

set_option autoImplicit false

namespace Verif.Props

open Verif.Tool.Symbex

variable {A O : Type}

/-- An assignment of an object to each choice that makes the specification succeed on all executions:
an object of each candidate list, no object twice. -/
structure Valid (L : Nat → List O) (D : Nat) (states : List (State A O)) (a : Nat → O) : Prop where
  mem : ∀ i, i < D → a i ∈ L i
  distinct : ∀ i j, i < D → j < D → a i = a j → i = j
  works : ∀ s ∈ states, ∀ ρ, s.C ρ → Succeeds ρ (fun i => some (a i)) s.root 0

theorem succeeds_mono {ρ : A} {a a' : Nat → Option O} (h : ∀ i x, a i = some x → a' i = some x) :
    (p : Prog A O) → (d : Nat) → Succeeds ρ a p d → Succeeds ρ a' p d
  | .done, _, _ => trivial
  | .fail _, _, hs => hs
  | .branch f k, d, hs => succeeds_mono h (k (f ρ)) d hs
  | .choose cs k, d, hs => by
    simp only [Succeeds] at hs ⊢
    cases had : a d with
    | none => rw [had] at hs; exact hs.elim
    | some o => rw [had] at hs; rw [h d o had]; exact succeeds_mono h (k o) (d + 1) hs

variable [DecidableEq O]

/-! ### One attempt -/

theorem attempt_mono (states : List (State A O)) : ∀ (n : Nat) (ch : List (List O)) (acc : List (List (Branches A)))
    (r : Out A O (List (List (Branches A)))), attempt n states ch acc = some r → ∀ m, attempt (n + m) states ch acc = some r := by
  induction states with
  | nil => intro n ch acc r h m; exact h
  | cons s ss ih =>
    intro n ch acc r h m
    simp only [attempt] at h ⊢
    cases he : explore s.C s.root n [] ch [] with
    | none => rw [he] at h; cases h
    | some o =>
      rw [he] at h
      rw [explore_mono _ _ _ _ _ _ _ he m]
      cases o with
      | err b ci c => exact h
      | ok ps c => exact ih _ _ _ _ h m

theorem attempt_result {L : Nat → List O} {D : Nat} {ch0 : List (List O)} (hc : Clean L ch0) (hlen : ch0.length ≤ D)
    (states : List (State A O)) (hu : ∀ s ∈ states, Uniform L D s.root 0) : ∀ (ch : List (List O)), Inv L D ch0 ch →
    ∀ acc, ∃ k ch', Inv L D ch0 ch' ∧
      (((∀ s ∈ states, (dfs s.C (chosen L ch0) s.root [] 0).2 = none) ∧
          ∃ results, ∀ n, attempt (n + k) states ch acc = some (.ok results ch')) ∨
        ∃ s ∈ states, ∃ b e, (dfs s.C (chosen L ch0) s.root [] 0).2 = some (b, e) ∧ Vis L ch0 e ch' ∧
          ∀ n, attempt (n + k) states ch acc = some (.err b e ch')) := by
  induction states with
  | nil => intro ch hi acc; exact ⟨0, ch, hi, Or.inl ⟨by simp, acc, fun n => rfl⟩⟩
  | cons s ss ih =>
    intro ch hi acc
    obtain ⟨k, ch1, hi1, h⟩ := explore_state hc hlen s.C s.root (hu s (by simp)) ch hi
    cases hd : dfs s.C (chosen L ch0) s.root [] 0 with
    | mk ps err =>
      rw [hd] at h
      cases err with
      | some be =>
        obtain ⟨b, e⟩ := be
        refine ⟨k, ch1, hi1, Or.inr ⟨s, by simp, b, e, by rw [hd], h.1, fun n => ?_⟩⟩
        simp only [attempt]
        rw [h.2 n]
      | none =>
        simp only at h
        obtain ⟨k2, ch2, hi2, h2⟩ := ih (fun s hs => hu s (by simp [hs])) ch1 hi1 (acc ++ [ps])
        refine ⟨k2 + k, ch2, hi2, ?_⟩
        have hstep : ∀ n, attempt (n + (k2 + k)) (s :: ss) ch acc = attempt (n + (k2 + k)) ss ch1 (acc ++ [ps]) := by
          intro n
          simp only [attempt]
          rw [show n + (k2 + k) = (n + k2) + k by omega, h (n + k2)]
        rcases h2 with ⟨h3, results, h4⟩ | ⟨s', hs', b, e, h3, h4, h5⟩
        · refine Or.inl ⟨?_, results, fun n => ?_⟩
          · intro s' hs'
            rcases List.mem_cons.mp hs' with rfl | hs'
            · rw [hd]
            · exact h3 s' hs'
          · rw [hstep, show n + (k2 + k) = (n + k) + k2 by omega]; exact h4 _
        · refine Or.inr ⟨s', by simp [hs'], b, e, h3, h4, fun n => ?_⟩
          rw [hstep, show n + (k2 + k) = (n + k) + k2 by omega]; exact h5 _

/-! ### Backtracking -/

omit [DecidableEq O] in
/-- The next choices: the last list with more than one candidate loses its first one. -/
theorem nextChoices_some {ch ch' : List (List O)} (h : nextChoices ch = some ch') :
    ∃ pre l post, ch = pre ++ l :: post ∧ (∀ x ∈ post, x.length = 1) ∧ l.length ≠ 1 ∧ ch' = pre ++ [l.tail] := by
  unfold nextChoices at h
  cases hd : ch.reverse.dropWhile fun l => l.length == 1 with
  | nil => rw [hd] at h; cases h
  | cons l rest =>
    rw [hd] at h
    simp only [Option.some.injEq] at h
    have hsplit := List.takeWhile_append_dropWhile (p := fun l : List O => l.length == 1) (l := ch.reverse)
    rw [hd] at hsplit
    refine ⟨rest.reverse, l, (ch.reverse.takeWhile fun l => l.length == 1).reverse, ?_, ?_, ?_, ?_⟩
    · have := congrArg List.reverse hsplit
      simp only [List.reverse_append, List.reverse_cons, List.reverse_reverse] at this
      rw [List.append_assoc] at this; exact this.symm
    · intro x hx
      have := List.mem_takeWhile_imp (List.mem_reverse.mp hx)
      simpa using this
    · have := List.head?_dropWhile_not (fun l : List O => l.length == 1) ch.reverse
      rw [hd] at this
      simpa using this
    · rw [← h]; simp

omit [DecidableEq O] in
theorem nextChoices_none {ch : List (List O)} (h : nextChoices ch = none) : ∀ x ∈ ch, x.length = 1 := by
  unfold nextChoices at h
  cases hd : ch.reverse.dropWhile fun l => l.length == 1 with
  | cons l rest => rw [hd] at h; cases h
  | nil =>
    intro x hx
    have := List.dropWhile_eq_nil_iff.mp hd x (List.mem_reverse.mpr hx)
    simpa using this

/-- An assignment not yet excluded: it follows the current choices up to some index, where it has one
of the remaining candidates. -/
def Cov (a : Nat → O) (ch : List (List O)) : Prop :=
  ∃ i, i ≤ ch.length ∧ (∀ j, j < i → (ch[j]?.bind List.head?) = some (a j)) ∧ ∀ l, ch[i]? = some l → a i ∈ l.tail

theorem mem_dedupe {prev : List (List O)} {l : List O} {x : O} (hx : x ∈ l) (hp : ∀ l' ∈ prev, l'.head? ≠ some x) : x ∈ dedupe prev l := by
  unfold dedupe
  have hq : (prev.any fun l' => l'.head? == some x) = false := by
    rw [List.any_eq_false]
    intro l' hl'
    have := hp l' hl'
    simpa using this
  generalize hg : (fun o => prev.any fun l' => l'.head? == some o) = q
  have hq : q x = false := by rw [← hg]; exact hq
  clear hg hp
  induction l with
  | nil => cases hx
  | cons y l ih =>
    rw [List.dropWhile_cons]
    split
    · rename_i hy
      rcases List.mem_cons.mp hx with rfl | hx
      · rw [hq] at hy; cases hy
      · exact ih hx
    · exact hx

theorem mem_comp {L : Nat → List O} {ch0 : List (List O)} {a : Nat → O} {i : Nat}
    (hd : ∀ j, j < i → a j ≠ a i) (hag : ∀ j, j < i → chosen L ch0 j = some (a j)) (hm : a i ∈ ch0[i]?.getD (L i)) :
    a i ∈ comp L ch0 i := by
  refine mem_dedupe hm fun l' hl' he => ?_
  obtain ⟨j, hj⟩ := List.mem_iff_getElem?.mp hl'
  have hlt : j < i := by
    have := (List.getElem?_eq_some_iff.mp hj).1
    rwa [upto_length] at this
  rw [upto_getElem? L ch0 i j hlt] at hj
  simp only [Option.some.injEq] at hj
  have := hag j hlt
  unfold chosen at this
  rw [hj, he] at this
  simp only [Option.some.injEq] at this
  exact hd j hlt this.symm

theorem agree_up {L : Nat → List O} {ch0 : List (List O)} {a : Nat → O} (m : Nat)
    (hd : ∀ i j, i < m → j < m → a i = a j → i = j) : ∀ (n i : Nat), i + n = m →
    (∀ j, j < i → chosen L ch0 j = some (a j)) → (∀ j, i ≤ j → j < m → a j ∈ ch0[j]?.getD (L j)) →
    ∃ i', i' ≤ m ∧ (∀ j, j < i' → chosen L ch0 j = some (a j)) ∧ (i' < m → a i' ∈ (comp L ch0 i').tail) := by
  intro n
  induction n with
  | zero => intro i hi hag _; exact ⟨i, by omega, hag, fun h => by omega⟩
  | succ n ih =>
    intro i hi hag hm
    have hmem := mem_comp (L := L) (ch0 := ch0) (a := a) (i := i)
      (fun j hj he => by have := hd j i (by omega) (by omega) he; omega) hag (hm i (by omega) (by omega))
    cases hc : comp L ch0 i with
    | nil => rw [hc] at hmem; cases hmem
    | cons y l =>
      rw [hc] at hmem
      by_cases hy : a i = y
      · refine ih (i + 1) (by omega) ?_ (fun j h1 h2 => hm j (by omega) h2)
        intro j hj
        by_cases hji : j = i
        · subst hji; unfold chosen; rw [hc, hy]; rfl
        · exact hag j (by omega)
      · refine ⟨i, by omega, hag, fun _ => ?_⟩
        rw [hc]
        rcases List.mem_cons.mp hmem with h | h
        · exact absurd h hy
        · exact h

/-- A clean list's elements but the last. -/
theorem clean_get {L : Nat → List O} {ch0 : List (List O)} (hc : Clean L ch0) (i : Nat) (h : i + 1 < ch0.length) :
    ch0[i]? = some (comp L ch0 i) := by
  have := upto_getElem? L ch0 (ch0.length - 1) i (by omega)
  rw [← hc, List.getElem?_take, if_pos (by omega)] at this
  exact this

theorem cov_upto {L : Nat → List O} {D m : Nat} {ch0 : List (List O)} {a : Nat → O} (hc : Clean L ch0) (h1 : ch0.length ≤ m) (h2 : m ≤ D)
    (hmem : ∀ i, i < D → a i ∈ L i) (hd : ∀ i j, i < D → j < D → a i = a j → i = j) (h : Cov a ch0) : Cov a (upto L ch0 m) := by
  obtain ⟨i, hi, hag, htl⟩ := h
  have conv : (∃ i', i' ≤ m ∧ (∀ j, j < i' → chosen L ch0 j = some (a j)) ∧ (i' < m → a i' ∈ (comp L ch0 i').tail)) → Cov a (upto L ch0 m) := by
    rintro ⟨i', g1, g2, g3⟩
    refine ⟨i', by rw [upto_length]; exact g1, ?_, ?_⟩
    · intro j hj
      rw [upto_getElem? L ch0 m j (by omega)]
      exact g2 j hj
    · intro l hl
      have hlt := (List.getElem?_eq_some_iff.mp hl).1
      rw [upto_length] at hlt
      rw [upto_getElem? L ch0 m i' hlt] at hl
      simp only [Option.some.injEq] at hl
      rw [← hl]; exact g3 hlt
  apply conv
  have hag' : ∀ j, j < i → j + 1 < ch0.length → chosen L ch0 j = some (a j) := by
    intro j hj hj2
    have := hag j hj
    rw [clean_get hc j hj2] at this
    exact this
  by_cases hlast : i + 1 < ch0.length
  · refine ⟨i, by omega, fun j hj => hag' j hj (by omega), fun _ => ?_⟩
    exact htl _ (clean_get hc i hlast)
  · refine agree_up m (fun i j hi hj => hd i j (by omega) (by omega)) (m - (ch0.length - 1)) (ch0.length - 1) (by omega) ?_ ?_
    · intro j hj
      exact hag' j (by omega) (by omega)
    · intro j hj1 hj2
      by_cases hj : j < ch0.length
      · have hje : j = ch0.length - 1 := by omega
        have hget : ch0[j]? = some ch0[j] := List.getElem?_eq_getElem hj
        by_cases hij : i = j
        · have := htl ch0[j] (by rw [hij]; exact hget)
          rw [hget]
          rw [hij] at this
          exact List.mem_of_mem_tail this
        · have := hag j (by omega)
          rw [hget] at this ⊢
          exact List.mem_of_mem_head? this
      · rw [List.getElem?_eq_none (by omega)]
        exact hmem j (by omega)

theorem cov_inv {L : Nat → List O} {D : Nat} {ch0 ch : List (List O)} {a : Nat → O} (hc : Clean L ch0) (hi : Inv L D ch0 ch)
    (hmem : ∀ i, i < D → a i ∈ L i) (hd : ∀ i j, i < D → j < D → a i = a j → i = j) (h : Cov a ch0) : Cov a ch := by
  rcases hi.1 with rfl | ⟨m, h1, h2, rfl⟩
  · exact h
  · exact cov_upto hc h1 h2 hmem hd h

/-- A failed attempt and backtracking keep every working assignment. -/
theorem cov_next {ch ch' : List (List O)} {a : Nat → O} (h : Cov a ch)
    (hno : ¬∀ j, j < ch.length → (ch[j]?.bind List.head?) = some (a j)) (hn : nextChoices ch = some ch') : Cov a ch' := by
  obtain ⟨i, hi, hag, htl⟩ := h
  have hilt : i < ch.length := by
    rcases Nat.lt_or_ge i ch.length with h | h
    · exact h
    · exact absurd (fun j hj => hag j (by omega)) hno
  obtain ⟨pre, l, post, rfl, hpost, hl, rfl⟩ := nextChoices_some hn
  have hget : (pre ++ l :: post)[i]? = some (pre ++ l :: post)[i] := List.getElem?_eq_getElem hilt
  have hai := htl _ hget
  have hip : i ≤ pre.length := by
    by_contra hcon
    have hpi : (pre ++ l :: post)[i] ∈ post := by
      have e : (pre ++ l :: post)[i]? = post[i - pre.length - 1]? := by
        rw [List.getElem?_append_right (by omega)]
        rw [show i - pre.length = (i - pre.length - 1) + 1 by omega]
        simp
      rw [hget] at e
      exact List.mem_of_getElem? e.symm
    have h1 := hpost _ hpi
    have := List.length_pos_of_mem hai
    rw [List.length_tail] at this
    omega
  by_cases hlt : i < pre.length
  · refine ⟨i, by simp; omega, ?_, ?_⟩
    · intro j hj
      have := hag j hj
      rw [List.getElem?_append_left (by omega)] at this ⊢
      exact this
    · intro l' hl'
      rw [List.getElem?_append_left hlt] at hl'
      exact htl l' (by rw [List.getElem?_append_left hlt]; exact hl')
  · have hie : i = pre.length := by omega
    subst hie
    have hai : a pre.length ∈ l.tail := by
      have := htl l (by simp)
      exact this
    have hag' : ∀ j, j < pre.length → ((pre ++ [l.tail])[j]?.bind List.head?) = some (a j) := by
      intro j hj
      have := hag j hj
      rw [List.getElem?_append_left hj] at this ⊢
      exact this
    cases ht : l.tail with
    | nil => rw [ht] at hai; cases hai
    | cons y t =>
      rw [ht] at hai hag'
      by_cases hy : a pre.length = y
      · refine ⟨pre.length + 1, by simp, ?_, ?_⟩
        · intro j hj
          by_cases hj2 : j < pre.length
          · exact hag' j hj2
          · have : j = pre.length := by omega
            subst this
            simp [hy]
        · intro l' hl'
          rw [List.getElem?_eq_none (by simp)] at hl'
          cases hl'
      · refine ⟨pre.length, by simp, hag', ?_⟩
        intro l' hl'
        simp only [List.getElem?_append_right (Nat.le_refl _), Nat.sub_self, List.getElem?_cons_zero, Option.some.injEq] at hl'
        rw [← hl']
        rcases List.mem_cons.mp hai with h | h
        · exact absurd h hy
        · exact h

omit [DecidableEq O] in
theorem cov_next_none {ch : List (List O)} {a : Nat → O} (h : Cov a ch)
    (hno : ¬∀ j, j < ch.length → (ch[j]?.bind List.head?) = some (a j)) : nextChoices ch ≠ none := by
  obtain ⟨i, hi, hag, htl⟩ := h
  intro hn
  have hilt : i < ch.length := by
    rcases Nat.lt_or_ge i ch.length with h | h
    · exact h
    · exact absurd (fun j hj => hag j (by omega)) hno
  have h1 := nextChoices_none hn _ (List.getElem_mem hilt)
  have h2 := List.length_pos_of_mem (htl _ (List.getElem?_eq_getElem hilt))
  rw [List.length_tail] at h2
  omega

/-- Backtracking keeps the lists clean. -/
theorem upto_pre {L : Nat → List O} {ch0 : List (List O)} (rest : List (List O)) (i : Nat) :
    ∀ j, j ≤ i → upto L (upto L ch0 i ++ rest) j = upto L ch0 j := by
  intro j
  induction j with
  | zero => intro _; rfl
  | succ j ih =>
    intro hj
    simp only [upto]
    rw [ih (by omega), List.getElem?_append_left (by rw [upto_length]; omega), upto_getElem? L ch0 i j (by omega)]
    simp only [Option.getD_some, comp, dedupe_idem]

theorem inv_take {L : Nat → List O} {D : Nat} {ch0 ch : List (List O)} (hc : Clean L ch0) (hi : Inv L D ch0 ch) (i : Nat) (h : i < ch.length) :
    ch.take i = upto L ch0 i := by
  rcases hi.1 with rfl | ⟨m, h1, h2, rfl⟩
  · have := congrArg (List.take i) hc
    rw [List.take_take, upto_take _ _ _ _ (by omega), show min i (ch.length - 1) = i by omega] at this
    exact this
  · rw [upto_length] at h
    exact upto_take _ _ _ _ (by omega)

theorem inv_length {L : Nat → List O} {D : Nat} {ch0 ch : List (List O)} (hlen : ch0.length ≤ D) (hi : Inv L D ch0 ch) : ch.length ≤ D := by
  rcases hi.1 with rfl | ⟨m, h1, h2, rfl⟩
  · exact hlen
  · rw [upto_length]; exact h2

theorem clean_next {L : Nat → List O} {D : Nat} {ch0 ch ch' : List (List O)} (hc : Clean L ch0) (hlen : ch0.length ≤ D) (hi : Inv L D ch0 ch)
    (hn : nextChoices ch = some ch') : Clean L ch' ∧ ch'.length ≤ D := by
  obtain ⟨pre, l, post, rfl, -, -, rfl⟩ := nextChoices_some hn
  have hpre := inv_take hc hi pre.length (by simp)
  rw [List.take_left] at hpre
  have hl := inv_length hlen hi
  simp only [List.length_append, List.length_cons] at hl
  refine ⟨?_, by simp; omega⟩
  unfold Clean
  simp only [List.length_append, List.length_singleton, Nat.add_sub_cancel, List.take_left]
  conv_lhs => rw [hpre]
  conv_rhs => rw [hpre]
  rw [upto_length, upto_pre _ _ _ (Nat.le_refl _)]

/-- A failed attempt excludes the assignments that agree with it. -/
theorem failed_excludes {L : Nat → List O} {D : Nat} {ch0 ch : List (List O)} {states : List (State A O)} {a : Nat → O}
    (hv : Valid L D states a) (hsat : ∀ s ∈ states, ∃ ρ, s.C ρ) {s : State A O} (hs : s ∈ states) {e : Nat}
    (hd : (dfs s.C (chosen L ch0) s.root [] 0).2 = some (false, e)) (hvis : Vis L ch0 e ch) :
    ¬∀ j, j < ch.length → (ch[j]?.bind List.head?) = some (a j) := by
  intro hag
  obtain ⟨ρ, h1, h2⟩ := dfs_err s.root [] 0 e ((hsat s hs).imp fun ρ hρ => ⟨hρ, by simp [follows]⟩) (Or.inl rfl) hd
  refine not_succeeds_of_fails ?_ s.root 0 h2 (hv.works s hs ρ h1.1)
  intro i x hx
  unfold cut at hx
  split at hx
  · rename_i hie
    have := hag i (by have := hvis.1; omega)
    have hg : ch[i]? = some (comp L ch0 i) := by
      have := upto_getElem? L ch0 e i hie
      rw [← hvis.2, List.getElem?_take, if_pos hie] at this
      exact this
    rw [hg] at this
    simp only [Option.bind_some] at this
    unfold chosen at hx
    rw [this] at hx
    exact hx
  · cases hx

theorem cov_nil (a : Nat → O) : Cov a [] := ⟨0, Nat.le_refl _, by intro j hj; omega, by intro l hl; simp at hl⟩

/-- One attempt of the search, from any of its states. -/
theorem search_step {L : Nat → List O} {D : Nat} {states : List (State A O)} (hu : ∀ s ∈ states, Uniform L D s.root 0)
    {fuel n : Nat} {ch0 : List (List O)} (hc : Clean L ch0) (hlen : ch0.length ≤ D)
    (hne : ∀ l ∈ ch0, l ≠ []) {r : Final A O}
    (h : search fuel states (n + 1) ch0 = some r) :
    ∃ ch, Inv L D ch0 ch ∧
      (((∀ s ∈ states, (dfs s.C (chosen L ch0) s.root [] 0).2 = none) ∧ ∃ results, r = .success ch results) ∨
        ∃ s ∈ states, ∃ b e, (dfs s.C (chosen L ch0) s.root [] 0).2 = some (b, e) ∧ Vis L ch0 e ch ∧
          ((b = true ∧ r = .raised) ∨ (b = false ∧ nextChoices ch = none ∧ r = .exhausted) ∨
            (b = false ∧ ∃ ch', nextChoices ch = some ch' ∧ search fuel states n ch' = some r))) := by
  obtain ⟨k, ch, hi, hcase⟩ := attempt_result hc hlen states hu ch0 ⟨Or.inl rfl, hne⟩ []
  refine ⟨ch, hi, ?_⟩
  simp only [search] at h
  cases ha : attempt fuel states ch0 [] with
  | none => rw [ha] at h; cases h
  | some o =>
    rw [ha] at h
    have hm := attempt_mono states fuel ch0 [] o ha k
    rcases hcase with ⟨h1, results, h2⟩ | ⟨s, hs, b, e, h1, h2, h3⟩
    · rw [h2 fuel] at hm
      simp only [Option.some.injEq] at hm
      subst hm
      simp only [Option.some.injEq] at h
      exact Or.inl ⟨h1, results, h.symm⟩
    · rw [h3 fuel] at hm
      simp only [Option.some.injEq] at hm
      subst hm
      refine Or.inr ⟨s, hs, b, e, h1, h2, ?_⟩
      cases b with
      | true => simp only [Option.some.injEq] at h; exact Or.inl ⟨rfl, h.symm⟩
      | false =>
        simp only at h
        cases hn : nextChoices ch with
        | none => rw [hn] at h; simp only [Option.some.injEq] at h; exact Or.inr (Or.inl ⟨rfl, rfl, h.symm⟩)
        | some ch' => rw [hn] at h; exact Or.inr (Or.inr ⟨rfl, ch', rfl, h⟩)

/-! ### The candidates stay candidates -/

/-- Each list is what remains of the candidates. -/
def Remains (L : Nat → List O) (ch : List (List O)) : Prop := ∀ i l, ch[i]? = some l → l <:+ L i ∧ l ≠ []

omit [DecidableEq O] in
theorem remains_getD {L : Nat → List O} {ch : List (List O)} (h : Remains L ch) (i : Nat) : ch[i]?.getD (L i) <:+ L i := by
  cases hc : ch[i]? with
  | none => exact List.suffix_refl _
  | some l => exact (h i l hc).1

theorem comp_suffix_raw (L : Nat → List O) (ch : List (List O)) (i : Nat) : comp L ch i <:+ ch[i]?.getD (L i) := List.dropWhile_suffix _

theorem comp_suffix {L : Nat → List O} {ch : List (List O)} (h : Remains L ch) (i : Nat) : comp L ch i <:+ L i :=
  (comp_suffix_raw L ch i).trans (remains_getD h i)

theorem inv_suffix {L : Nat → List O} {D : Nat} {ch0 ch : List (List O)} (hr : Remains L ch0) (hi : Inv L D ch0 ch) : Remains L ch := by
  intro i l hl
  refine ⟨?_, hi.2 l (List.mem_of_getElem? hl)⟩
  rcases hi.1 with rfl | ⟨m, h1, h2, rfl⟩
  · exact (hr i l hl).1
  · have hlt := (List.getElem?_eq_some_iff.mp hl).1
    rw [upto_length] at hlt
    rw [upto_getElem? L ch0 m i hlt] at hl
    simp only [Option.some.injEq] at hl
    rw [← hl]; exact comp_suffix hr i

omit [DecidableEq O] in
theorem remains_ne {L : Nat → List O} {ch : List (List O)} (h : Remains L ch) : ∀ l ∈ ch, l ≠ [] := by
  intro l hl
  obtain ⟨i, hi⟩ := List.mem_iff_getElem?.mp hl
  exact (h i l hi).2

omit [DecidableEq O] in
theorem remains_nil (L : Nat → List O) : Remains L [] := by intro i l h; simp at h

omit [DecidableEq O] in
theorem remains_next {L : Nat → List O} {ch ch' : List (List O)} (h : Remains L ch) (hn : nextChoices ch = some ch') : Remains L ch' := by
  obtain ⟨pre, l, post, rfl, -, hl, rfl⟩ := nextChoices_some hn
  intro i x hx
  have hlt := (List.getElem?_eq_some_iff.mp hx).1
  simp only [List.length_append, List.length_singleton] at hlt
  by_cases hi : i < pre.length
  · rw [List.getElem?_append_left hi] at hx
    exact h i x (by rw [List.getElem?_append_left hi]; exact hx)
  · have : i = pre.length := by omega
    subst this
    have hx : l.tail = x := by simpa using hx
    have hl' := h pre.length l (by simp)
    subst hx
    refine ⟨(List.tail_suffix l).trans hl'.1, ?_⟩
    cases l with
    | nil => exact absurd rfl hl'.2
    | cons y t => cases t with
      | nil => simp at hl
      | cons => simp

/-! ### Searching -/

/-- The candidates at each step of the search. -/
structure GoodChoices (L : Nat → List O) (D : Nat) (ch : List (List O)) : Prop where
  clean : Clean L ch
  length : ch.length ≤ D
  remains : Remains L ch

theorem good_nil (L : Nat → List O) (D : Nat) : GoodChoices L D [] := ⟨clean_nil L, Nat.zero_le _, remains_nil L⟩

theorem good_next {L : Nat → List O} {D : Nat} {ch0 ch ch' : List (List O)} (hg : GoodChoices L D ch0) (hi : Inv L D ch0 ch)
    (hn : nextChoices ch = some ch') : GoodChoices L D ch' := by
  obtain ⟨c1, c2⟩ := clean_next hg.clean hg.length hi hn
  exact ⟨c1, c2, remains_next (inv_suffix hg.remains hi) hn⟩

theorem chosen_mem {L : Nat → List O} {ch : List (List O)} (h : Remains L ch) {i : Nat} {x : O} (hx : chosen L ch i = some x) : x ∈ L i :=
  (comp_suffix h i).subset (List.mem_of_mem_head? hx)

/-- No object is chosen twice. -/
theorem chosen_distinct {L : Nat → List O} {ch : List (List O)} {i j : Nat} (hij : i < j) {x : O} (hx : chosen L ch i = some x) :
    chosen L ch j ≠ some x := by
  intro hy
  unfold chosen at hx hy
  have hmem : comp L ch i ∈ upto L ch j := List.mem_of_getElem? (upto_getElem? L ch j i hij)
  unfold comp at hy
  have := List.head?_dropWhile_not (fun o => (upto L ch j).any fun l' => l'.head? == some o) (ch[j]?.getD (L j))
  unfold dedupe at hy
  rw [hy] at this
  simp only [List.any_eq_false] at this
  have := this _ hmem
  simp only [hx, beq_self_eq_true, not_true_eq_false] at this

/-- C38: if the search succeeds, it found objects among the candidates, none of them twice, for which
the specification succeeds on all executions. -/
theorem C38_found {L : Nat → List O} {D : Nat} {states : List (State A O)} (hu : ∀ s ∈ states, Uniform L D s.root 0)
    (hsat : ∀ s ∈ states, ∃ ρ, s.C ρ) {fuel n : Nat} {ch : List (List O)} {results : List (List (Branches A))}
    (h : search fuel states n [] = some (.success ch results)) :
    ∃ a : Nat → Option O, (∀ i x, a i = some x → x ∈ L i) ∧ (∀ i j x, a i = some x → a j = some x → i = j) ∧
      ∀ s ∈ states, ∀ ρ, s.C ρ → Succeeds ρ a s.root 0 := by
  have gen : ∀ n (ch0 : List (List O)), GoodChoices L D ch0 → search fuel states n ch0 = some (.success ch results) →
      ∃ ch1, GoodChoices L D ch1 ∧ ∀ s ∈ states, (dfs s.C (chosen L ch1) s.root [] 0).2 = none := by
    intro n
    induction n with
    | zero => intro ch0 _ h; simp [search] at h
    | succ n ih =>
      intro ch0 hg h
      obtain ⟨ch2, hi, hcase⟩ := search_step hu hg.clean hg.length (remains_ne hg.remains) h
      rcases hcase with ⟨h1, -⟩ | ⟨s, hs, b, e, h1, h2, h3⟩
      · exact ⟨ch0, hg, h1⟩
      · rcases h3 with ⟨-, hr⟩ | ⟨-, -, hr⟩ | ⟨rfl, ch', hn, hr⟩
        · cases hr
        · cases hr
        · exact ih ch' (good_next hg hi hn) hr
  obtain ⟨ch1, hg, hd⟩ := gen n [] (good_nil L D) h
  refine ⟨chosen L ch1, fun i x hx => chosen_mem hg.remains hx, ?_, ?_⟩
  · intro i j x hi hj
    rcases Nat.lt_trichotomy i j with hlt | heq | hlt
    · exact absurd hj (chosen_distinct hlt hi)
    · exact heq
    · exact absurd hi (chosen_distinct hlt hj)
  · intro s hs ρ hρ
    exact (dfs_ok s.root [] 0 ((hsat s hs).imp fun ρ hρ => ⟨hρ, by simp [follows]⟩) (hd s hs)).2 ρ ⟨hρ, by simp [follows]⟩

/-- C38: if the search gives up because all choices were tried, no assignment of distinct objects works. -/
theorem C38_exhausted {L : Nat → List O} {D : Nat} {states : List (State A O)} (hu : ∀ s ∈ states, Uniform L D s.root 0)
    (hsat : ∀ s ∈ states, ∃ ρ, s.C ρ) {fuel n : Nat} (h : search fuel states n [] = some .exhausted) :
    ¬∃ a, Valid L D states a := by
  rintro ⟨a, hv⟩
  have gen : ∀ n (ch0 : List (List O)), GoodChoices L D ch0 → Cov a ch0 → search fuel states n ch0 ≠ some .exhausted := by
    intro n
    induction n with
    | zero => intro ch0 _ _ h; simp [search] at h
    | succ n ih =>
      intro ch0 hg hcov h
      obtain ⟨ch, hi, hcase⟩ := search_step hu hg.clean hg.length (remains_ne hg.remains) h
      rcases hcase with ⟨-, results, hr⟩ | ⟨s, hs, b, e, h1, h2, h3⟩
      · cases hr
      · have hcov' := cov_inv hg.clean hi hv.mem hv.distinct hcov
        rcases h3 with ⟨-, hr⟩ | ⟨rfl, hn, -⟩ | ⟨rfl, ch', hn, hr⟩
        · cases hr
        · exact cov_next_none hcov' (failed_excludes hv hsat hs h1 h2) hn
        · exact ih ch' (good_next hg hi hn) (cov_next hcov' (failed_excludes hv hsat hs h1 h2) hn) hr
  exact gen n [] (good_nil L D) (cov_nil a) h

/-! ### Termination -/

/-- The number of candidate tuples from the i-th choice on, each list with one more. -/
def cap (L : Nat → List O) : Nat → Nat → Nat
  | 0, _ => 1
  | n + 1, i => ((L i).length + 1) * cap L n (i + 1)

/-- What is left to try: decreases with every attempt. -/
def left (L : Nat → List O) : Nat → Nat → List (List O) → Nat
  | n, i, [] => cap L n i - 1
  | 0, _, _ :: _ => 0
  | n + 1, i, l :: ch => l.length * cap L n (i + 1) + left L n (i + 1) ch

omit [DecidableEq O] in
theorem cap_pos (L : Nat → List O) (n : Nat) : ∀ i, 0 < cap L n i := by
  induction n with
  | zero => intro i; simp [cap]
  | succ n ih => intro i; exact Nat.mul_pos (by omega) (ih _)

omit [DecidableEq O] in
theorem left_nil (L : Nat → List O) (n i : Nat) : left L (n + 1) i [] = left L (n + 1) i [L i] := by
  simp only [left, cap, Nat.add_mul, Nat.one_mul]
  have := cap_pos L n (i + 1)
  omega

omit [DecidableEq O] in
theorem left_le (L : Nat → List O) : ∀ (n i : Nat) (c1 c2 : List (List O)), c1.length ≤ n → c2.length ≤ n →
    (∀ k, (c1[k]?.getD (L (i + k))).length ≤ (c2[k]?.getD (L (i + k))).length) → left L n i c1 ≤ left L n i c2 := by
  intro n
  induction n with
  | zero =>
    intro i c1 c2 h1 h2 _
    have e1 : c1 = [] := List.eq_nil_of_length_eq_zero (by omega)
    have e2 : c2 = [] := List.eq_nil_of_length_eq_zero (by omega)
    subst e1; subst e2; exact Nat.le_refl _
  | succ n ih =>
    have cons : ∀ (i : Nat) (l1 l2 : List O) (c1 c2 : List (List O)), c1.length ≤ n → c2.length ≤ n → l1.length ≤ l2.length →
        (∀ k, (c1[k]?.getD (L (i + 1 + k))).length ≤ (c2[k]?.getD (L (i + 1 + k))).length) → left L (n + 1) i (l1 :: c1) ≤ left L (n + 1) i (l2 :: c2) := by
      intro i l1 l2 c1 c2 h1 h2 hl hk
      simp only [left]
      exact Nat.add_le_add (Nat.mul_le_mul_right _ hl) (ih _ _ _ h1 h2 hk)
    intro i c1 c2 h1 h2 hk
    have hk' : ∀ k, (c1[k + 1]?.getD (L (i + 1 + k))).length ≤ (c2[k + 1]?.getD (L (i + 1 + k))).length := by
      intro k
      have := hk (k + 1)
      rwa [show i + (k + 1) = i + 1 + k by omega] at this
    have h0 := hk 0
    cases c1 with
    | nil =>
      cases c2 with
      | nil => exact Nat.le_refl _
      | cons l2 c2 =>
        rw [left_nil]
        exact cons i _ _ _ _ (by simp) (by simpa using h2) (by simpa using h0) (by simpa using hk')
    | cons l1 c1 =>
      cases c2 with
      | nil =>
        rw [left_nil]
        exact cons i _ _ _ _ (by simpa using h1) (by simp) (by simpa using h0) (by simpa using hk')
      | cons l2 c2 => exact cons i _ _ _ _ (by simpa using h1) (by simpa using h2) (by simpa using h0) (by simpa using hk')

omit [DecidableEq O] in
theorem left_lt (L : Nat → List O) (l : List O) (post : List (List O)) (hl : l ≠ []) : ∀ (pre : List (List O)) (n i : Nat), pre.length < n →
    left L n i (pre ++ [l.tail]) < left L n i (pre ++ l :: post) := by
  intro pre
  induction pre with
  | nil =>
    intro n i h
    cases n with
    | zero => simp at h
    | succ n =>
      simp only [List.nil_append, left, List.length_tail]
      have h1 := cap_pos L n (i + 1)
      have h2 : 0 < l.length := List.length_pos_of_ne_nil hl
      have h3 : (l.length - 1) * cap L n (i + 1) + cap L n (i + 1) = l.length * cap L n (i + 1) := by
        rw [← Nat.succ_mul]; congr 1; omega
      omega
  | cons x pre ih =>
    intro n i h
    cases n with
    | zero => simp at h
    | succ n =>
      simp only [List.cons_append, left]
      have := ih n (i + 1) (by simpa using h)
      omega

theorem left_inv {L : Nat → List O} {D : Nat} {ch0 ch : List (List O)} (hlen : ch0.length ≤ D) (hi : Inv L D ch0 ch) :
    left L D 0 ch ≤ left L D 0 ch0 := by
  refine left_le L D 0 ch ch0 (inv_length hlen hi) hlen fun k => ?_
  rw [Nat.zero_add]
  rcases hi.1 with rfl | ⟨m, h1, h2, rfl⟩
  · exact Nat.le_refl _
  · by_cases hk : k < m
    · rw [upto_getElem? L ch0 m k hk]
      exact (comp_suffix_raw L ch0 k).length_le
    · rw [List.getElem?_eq_none (by rw [upto_length]; omega), List.getElem?_eq_none (by omega)]

/-- C38: the search ends. -/
theorem C38_terminates {L : Nat → List O} {D : Nat} {states : List (State A O)} (hu : ∀ s ∈ states, Uniform L D s.root 0) :
    ∃ fuel tries r, ∀ m n, search (m + fuel) states (n + tries) [] = some r := by
  have gen : ∀ (w : Nat) (ch0 : List (List O)), GoodChoices L D ch0 → left L D 0 ch0 ≤ w →
      ∃ fuel tries r, ∀ m n, search (m + fuel) states (n + tries) ch0 = some r := by
    intro w
    induction w using Nat.strong_induction_on with
    | _ w ih =>
      intro ch0 hg hw
      obtain ⟨k, ch, hi, hcase⟩ := attempt_result hg.clean hg.length states hu ch0 ⟨Or.inl rfl, remains_ne hg.remains⟩ []
      rcases hcase with ⟨-, results, h⟩ | ⟨s, hs, b, e, -, -, h⟩
      · exact ⟨k, 1, .success ch results, fun m n => by simp only [search, h m]⟩
      · cases b with
        | true => exact ⟨k, 1, .raised, fun m n => by simp only [search, h m]⟩
        | false =>
          cases hn : nextChoices ch with
          | none => exact ⟨k, 1, .exhausted, fun m n => by simp only [search, h m, hn]⟩
          | some ch' =>
            have hdec : left L D 0 ch' < w := by
              have h1 := left_inv hg.length hi
              have h2 := inv_length hg.length hi
              obtain ⟨pre, l, post, rfl, -, -, rfl⟩ := nextChoices_some hn
              have := left_lt L l post (hi.2 l (by simp)) pre D 0 (by simp at h2; omega)
              omega
            obtain ⟨k2, t2, r, h2⟩ := ih _ hdec ch' (good_next hg hi hn) (Nat.le_refl _)
            refine ⟨k2 + k, t2 + 1, r, fun m n => ?_⟩
            rw [← Nat.add_assoc n, ← Nat.add_assoc m]
            simp only [search, h (m + k2), hn]
            rw [show m + k2 + k = (m + k) + k2 by omega]
            exact h2 _ _
  exact gen _ [] (good_nil L D) (Nat.le_refl _)

/-! ### When nothing is raised -/

omit [DecidableEq O] in
/-- No enumeration of a specification without built-in exceptions ends in one if every choice has an object. -/
theorem dfs_no_builtin {L : Nat → List O} {D : Nat} {C : A → Prop} {a : Nat → Option O} (ha : ∀ i, i < D → a i ≠ none) :
    (p : Prog A O) → NoBuiltin p → (path : Branches A) → (d : Nat) → Uniform L D p d → ∀ e, (dfs C a p path d).2 ≠ some (true, e)
  | .done, _, path, d, _, e => by simp [dfs]
  | .fail b, hb, path, d, _, e => by
    simp only [NoBuiltin] at hb
    simp [dfs, hb]
  | .branch f k, hb, path, d, hu, e => by
    simp only [dfs]
    cases ht : canBe C path f true <;> cases hfl : canBe C path f false <;> simp only
    · simp
    · exact dfs_no_builtin ha (k false) (hb false) path d (hu false) e
    · exact dfs_no_builtin ha (k true) (hb true) path d (hu true) e
    · have i1 := dfs_no_builtin (C := C) ha (k true) (hb true) (path ++ [(f, true)]) d (hu true) e
      have i2 := dfs_no_builtin (C := C) ha (k false) (hb false) (path ++ [(f, false)]) d (hu false) e
      cases h1 : dfs C a (k true) (path ++ [(f, true)]) d with
      | mk ps e' =>
        rw [h1] at i1
        cases e' with
        | some e' => exact i1
        | none => exact i2
  | .choose cs k, hb, path, d, hu, e => by
    obtain ⟨hcs, hne, hdD, hk⟩ := hu
    simp only [dfs]
    cases had : a d with
    | none => exact absurd had (ha d hdD)
    | some o => exact dfs_no_builtin ha (k o) (hb o) path (d + 1) (hk o) e

theorem comp_disjoint {L : Nat → List O} {D : Nat} {ch : List (List O)} (hne : ∀ i, i < D → L i ≠ [])
    (hdisj : ∀ i j x, i < D → j < D → x ∈ L i → x ∈ L j → i = j) (hr : Remains L ch) (i : Nat) (hi : i < D) : chosen L ch i ≠ none := by
  have hraw : ch[i]?.getD (L i) ≠ [] := by
    cases hc : ch[i]? with
    | none => exact hne i hi
    | some l => exact (hr i l hc).2
  have hsub := (remains_getD hr i).subset
  intro hnone
  unfold chosen at hnone
  rw [List.head?_eq_none_iff] at hnone
  cases hraw' : ch[i]?.getD (L i) with
  | nil => exact hraw hraw'
  | cons x xs =>
    rw [hraw'] at hsub
    have hmem : x ∈ comp L ch i := by
      unfold comp
      refine mem_dedupe (by rw [hraw']; simp) fun l' hl' he => ?_
      obtain ⟨j, hj⟩ := List.mem_iff_getElem?.mp hl'
      have hlt : j < i := by
        have := (List.getElem?_eq_some_iff.mp hj).1
        rwa [upto_length] at this
      rw [upto_getElem? L ch i j hlt] at hj
      simp only [Option.some.injEq] at hj
      have hx : chosen L ch j = some x := by unfold chosen; rw [hj]; exact he
      have := hdisj j i x (by omega) hi (chosen_mem hr hx) (hsub (by simp))
      omega
    rw [hnone] at hmem
    cases hmem

/-- C38 (partial: missing are specifications that raise a built-in exception such as a failed
`assert`, and candidate lists that share objects): the search finds a working assignment exactly if
there is one. -/
theorem C38_search_partial [Nonempty O] {L : Nat → List O} {D : Nat} {states : List (State A O)} (hu : ∀ s ∈ states, Uniform L D s.root 0)
    (hsat : ∀ s ∈ states, ∃ ρ, s.C ρ) (hb : ∀ s ∈ states, NoBuiltin s.root) (hne : ∀ i, i < D → L i ≠ [])
    (hdisj : ∀ i j x, i < D → j < D → x ∈ L i → x ∈ L j → i = j) :
    (∃ fuel tries ch results, search fuel states tries [] = some (.success ch results)) ↔ ∃ a, Valid L D states a := by
  constructor
  · rintro ⟨fuel, tries, ch, results, h⟩
    obtain ⟨a, h1, h2, h3⟩ := C38_found hu hsat h
    obtain ⟨o⟩ := ‹Nonempty O›
    let a' : Nat → O := fun i => (a i).getD ((L i).head?.getD o)
    have hmem : ∀ i, i < D → a' i ∈ L i := by
      intro i hi
      cases hai : a i with
      | some x => simp only [a', hai, Option.getD_some]; exact h1 i x hai
      | none =>
        simp only [a', hai, Option.getD_none]
        cases hl : L i with
        | nil => exact absurd hl (hne i hi)
        | cons x xs => simp
    refine ⟨a', hmem, ?_, ?_⟩
    · intro i j hi hj he
      exact hdisj i j (a' i) hi hj (hmem i hi) (by rw [he]; exact hmem j hj)
    · intro s hs ρ hρ
      refine succeeds_mono ?_ s.root 0 (h3 s hs ρ hρ)
      intro i x hx
      simp [a', hx]
  · rintro ⟨a, hv⟩
    obtain ⟨fuel, tries, r, hr⟩ := C38_terminates hu
    have h := hr 0 0
    cases r with
    | success ch results => exact ⟨_, _, ch, results, h⟩
    | exhausted => exact absurd ⟨a, hv⟩ (C38_exhausted hu hsat h)
    | raised =>
      exfalso
      have gen : ∀ n (ch0 : List (List O)), GoodChoices L D ch0 → search (0 + fuel) states n ch0 ≠ some .raised := by
        intro n
        induction n with
        | zero => intro ch0 _ h; simp [search] at h
        | succ n ih =>
          intro ch0 hg h
          obtain ⟨ch2, hi, hcase⟩ := search_step hu hg.clean hg.length (remains_ne hg.remains) h
          rcases hcase with ⟨-, results, hr⟩ | ⟨s, hs, b, e, h1, h2, h3⟩
          · cases hr
          · rcases h3 with ⟨rfl, -⟩ | ⟨-, -, hr⟩ | ⟨rfl, ch', hn, hr⟩
            · exact dfs_no_builtin (fun i hi => comp_disjoint hne hdisj hg.remains i hi) s.root (hb s hs) [] 0 (hu s hs) e h1
            · cases hr
            · exact ih ch' (good_next hg hi hn) hr
      exact gen _ [] (good_nil L D) h

/-! ### Where it goes wrong -/

/-- A specification that chooses one of two objects and asserts something that only the second one fulfils. -/
def assertingSpec : Prog Unit Nat := .choose [0, 1] fun o => if o = 1 then .done else .fail true

/-- C38 is false: if the first object fails an `assert` of the specification, the search ends with the
exception although the second object works. -/
theorem C38_assertion_not_retried :
    Valid (fun _ => [0, 1]) 1 [⟨fun _ => True, assertingSpec⟩] (fun _ => 1) ∧
    ∀ fuel tries, search (fuel + 1) [⟨fun _ => True, assertingSpec⟩] (tries + 1) [] = some .raised := by
  refine ⟨⟨by simp, by intro i j; omega, ?_⟩, fun fuel tries => ?_⟩
  · intro s hs ρ _
    simp only [List.mem_singleton] at hs
    subst hs
    simp [assertingSpec, Succeeds]
  · simp [search, attempt, explore, assertingSpec, run, dedupe]

/-- A specification that chooses two objects of the same two candidates and works for one order only. -/
def swappingSpec : Prog Unit Nat :=
  .choose [0, 1] fun x => .choose [1, 0] fun y => if x = 1 ∧ y = 0 then .done else .fail false

/-- C38 is false, even without failing assertions: after the first attempt fails, dropping the
candidates already used leaves none, and the search ends with an exception although an assignment works. -/
theorem C38_duplicates_abort :
    Valid (fun i => if i = 0 then [0, 1] else [1, 0]) 2 [⟨fun _ => True, swappingSpec⟩] (fun i => if i = 0 then 1 else 0) ∧
    NoBuiltin swappingSpec ∧
    ∀ fuel tries, search (fuel + 1) [⟨fun _ => True, swappingSpec⟩] (tries + 2) [] = some .raised := by
  refine ⟨⟨?_, ?_, ?_⟩, ?_, fun fuel tries => ?_⟩
  · intro i _; by_cases h : i = 0 <;> simp [h]
  · intro i j hi hj h
    by_cases h1 : i = 0 <;> by_cases h2 : j = 0 <;> simp [h1, h2] at h <;> omega
  · intro s hs ρ _
    simp only [List.mem_singleton] at hs
    subst hs
    simp [swappingSpec, Succeeds]
  · intro x y
    by_cases h : x = 1 ∧ y = 0 <;> simp [NoBuiltin, h]
  · simp [search, attempt, explore, swappingSpec, run, dedupe, nextChoices]

/-- A specification that chooses two objects of disjoint candidates; only the second of each works, and
which check is made depends on the execution. -/
def searchingSpec : Prog Bool Nat :=
  .choose [0, 1] fun x => .branch id fun b => .choose [2, 3] fun y =>
    if (if b then x = 1 else y = 3) then .done else .fail false

/-- The hypotheses of `C38_search_partial` (and of `C38_found`, `C38_exhausted`, `C38_terminates`) are met. -/
example : Uniform (fun i => if i = 0 then [0, 1] else [2, 3]) 2 searchingSpec 0 ∧ NoBuiltin searchingSpec ∧
    (∀ i j x : Nat, i < 2 → j < 2 → x ∈ (if i = 0 then [0, 1] else [2, 3]) → x ∈ (if j = 0 then [0, 1] else [2, 3]) → i = j) ∧
    Valid (fun i => if i = 0 then [0, 1] else [2, 3]) 2 [⟨fun _ => True, searchingSpec⟩] (fun i => if i = 0 then 1 else 3) := by
  refine ⟨?_, ?_, ?_, ?_, ?_, ?_⟩
  · refine ⟨rfl, by simp, by omega, fun x b => ⟨rfl, by simp, by omega, fun y => ?_⟩⟩
    cases b
    · by_cases h : y = 3 <;> simp [Uniform, h]
    · by_cases h : x = 1 <;> simp [Uniform, h]
  · intro x b y
    cases b
    · by_cases h : y = 3 <;> simp [NoBuiltin, h]
    · by_cases h : x = 1 <;> simp [NoBuiltin, h]
  · intro i j x hi hj h1 h2
    by_cases hi0 : i = 0 <;> by_cases hj0 : j = 0 <;> simp [hi0, hj0] at h1 h2 <;> omega
  · intro i _; by_cases h : i = 0 <;> simp [h]
  · intro i j hi hj h
    by_cases h1 : i = 0 <;> by_cases h2 : j = 0 <;> simp [h1, h2] at h <;> omega
  · intro s hs ρ _
    simp only [List.mem_singleton] at hs
    subst hs
    cases ρ <;> simp [searchingSpec, Succeeds]

end Verif.Props
