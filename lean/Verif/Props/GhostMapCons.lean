/-
Property C21: the answers of a ghost map are consistent under every assignment that satisfies the constraints.
-/
import Verif.Props.GhostMapWrong2

set_option autoImplicit false

namespace Verif.Tool.GhostMap

mutual
theorem E.exists_within : ∀ e : E, ∃ n, e.within n
  | .const _ => ⟨0, trivial⟩
  | .var i => ⟨i + 1, Nat.lt_succ_self _⟩
  | .op1 _ a => E.exists_within a
  | .op2 _ a b => by
    obtain ⟨n, h⟩ := E.exists_within a
    obtain ⟨m, h'⟩ := E.exists_within b
    exact ⟨max n m, E.within_mono (Nat.le_max_left _ _) _ h, E.within_mono (Nat.le_max_right _ _) _ h'⟩
  | .ite c a b => by
    obtain ⟨k, h0⟩ := B.exists_within c
    obtain ⟨n, h⟩ := E.exists_within a
    obtain ⟨m, h'⟩ := E.exists_within b
    exact ⟨max k (max n m), B.within_mono (Nat.le_max_left _ _) _ h0, E.within_mono (by omega) _ h, E.within_mono (by omega) _ h'⟩
theorem B.exists_within : ∀ e : B, ∃ n, e.within n
  | .lit _ => ⟨0, trivial⟩
  | .var i => ⟨i + 1, Nat.lt_succ_self _⟩
  | .not a => B.exists_within a
  | .and a b => by
    obtain ⟨n, h⟩ := B.exists_within a
    obtain ⟨m, h'⟩ := B.exists_within b
    exact ⟨max n m, B.within_mono (Nat.le_max_left _ _) _ h, B.within_mono (Nat.le_max_right _ _) _ h'⟩
  | .or a b => by
    obtain ⟨n, h⟩ := B.exists_within a
    obtain ⟨m, h'⟩ := B.exists_within b
    exact ⟨max n m, B.within_mono (Nat.le_max_left _ _) _ h, B.within_mono (Nat.le_max_right _ _) _ h'⟩
  | .iff a b => by
    obtain ⟨n, h⟩ := B.exists_within a
    obtain ⟨m, h'⟩ := B.exists_within b
    exact ⟨max n m, B.within_mono (Nat.le_max_left _ _) _ h, B.within_mono (Nat.le_max_right _ _) _ h'⟩
  | .ite c a b => by
    obtain ⟨k, h0⟩ := B.exists_within c
    obtain ⟨n, h⟩ := B.exists_within a
    obtain ⟨m, h'⟩ := B.exists_within b
    exact ⟨max k (max n m), B.within_mono (Nat.le_max_left _ _) _ h0, B.within_mono (by omega) _ h, B.within_mono (by omega) _ h'⟩
  | .rel _ a b => by
    obtain ⟨n, h⟩ := E.exists_within a
    obtain ⟨m, h'⟩ := E.exists_within b
    exact ⟨max n m, E.within_mono (Nat.le_max_left _ _) _ h, E.within_mono (Nat.le_max_right _ _) _ h'⟩
end

theorem Item.exists_within (i : Item) : ∃ n, i.within n := by
  obtain ⟨a, ha⟩ := E.exists_within i.key
  obtain ⟨b, hb⟩ := E.exists_within i.value
  obtain ⟨c, hc⟩ := B.exists_within i.present
  exact ⟨max a (max b c), E.within_mono (by omega) _ ha, E.within_mono (by omega) _ hb, B.within_mono (by omega) _ hc⟩

/-- The invariants read no map. -/
def NoReads (invs : List IB) : Prop := ∀ inv ∈ invs, ∃ n, inv.pure n

theorem applyInvs_state (g : GetFn) (item : Item) (cond : B) (st : State) {invs : List IB} (h : NoReads invs) :
    ∃ bs, applyInvs g item cond st invs = some (bs, st) := by
  obtain ⟨m, hm⟩ := item.exists_within
  have : ∃ n, ∀ inv ∈ invs, inv.pure n := by
    clear hm
    induction invs with
    | nil => exact ⟨0, by simp⟩
    | cons a l ih =>
      obtain ⟨n, hn⟩ := ih fun i hi => h i (by simp [hi])
      obtain ⟨k, hk⟩ := h a (by simp)
      exact ⟨max n k, fun i hi => by
        rcases List.mem_cons.1 hi with rfl | hi
        · exact IB.pure_mono (Nat.le_max_right _ _) _ hk
        · exact IB.pure_mono (Nat.le_max_left _ _) _ (hn i hi)⟩
  obtain ⟨n, hn⟩ := this
  obtain ⟨bs, hb, -⟩ := applyInvs_pure g item cond st (n := n) (m := max m n)
    ⟨E.within_mono (by omega) _ hm.1, E.within_mono (by omega) _ hm.2.1, B.within_mono (by omega) _ hm.2.2⟩ (by omega) invs hn
  exact ⟨bs, hb⟩

/-- Two items with the same key have the same value and presence. -/
def Consistent (ρ : Env) (l : List Item) : Prop :=
  ∀ i ∈ l, ∀ j ∈ l, i.key.den ρ = j.key.den ρ → i.value.den ρ = j.value.den ρ ∧ i.present.den ρ = j.present.den ρ

/-- Every set of present keys has at most `n` elements. -/
def AtMost (ρ : Env) (l : List Item) (n : Nat) : Prop :=
  ∀ S : Finset Nat, (∀ k ∈ S, ∃ i ∈ l, i.key.den ρ = k ∧ i.present.den ρ = true) → S.card ≤ n

theorem countNew_length (ρ : Env) : ∀ (l : List Item) (keys : List Nat), countNew ρ keys l ≤ l.length
  | [], _ => Nat.le_refl _
  | i :: l, keys => by
    have := countNew_length ρ l (keys ++ [i.key.den ρ])
    simp only [countNew, List.length_cons]
    split <;> omega

theorem countNew_ge (ρ : Env) : ∀ (l : List Item) (keys : List Nat) (S : Finset Nat), Consistent ρ l →
    (∀ k ∈ S, k ∉ keys ∧ ∃ i ∈ l, i.key.den ρ = k ∧ i.present.den ρ = true) → S.card ≤ countNew ρ keys l
  | [], keys, S, _, h => by
    have : S = ∅ := by
      by_contra hne
      obtain ⟨k, hk⟩ := Finset.nonempty_iff_ne_empty.2 hne
      obtain ⟨-, i, hi, -⟩ := h k hk
      simp at hi
    simp [this]
  | i :: l, keys, S, hc, h => by
    have ih := countNew_ge ρ l (keys ++ [i.key.den ρ]) (S.erase (i.key.den ρ)) (fun a ha b hb => hc a (by simp [ha]) b (by simp [hb])) (by
      intro k hk
      rw [Finset.mem_erase] at hk
      obtain ⟨h1, j, hj, e, hp⟩ := h k hk.2
      refine ⟨by simp [h1, hk.1], j, ?_, e, hp⟩
      rcases List.mem_cons.1 hj with rfl | hj
      · exact absurd e.symm hk.1
      · exact hj)
    simp only [countNew]
    by_cases hmem : i.key.den ρ ∈ S
    · obtain ⟨h1, j, hj, e, hp⟩ := h _ hmem
      have := (hc i (by simp) j hj e.symm).2
      rw [hp] at this
      rw [if_pos ⟨h1, this⟩]
      rw [Finset.card_erase_of_mem hmem] at ih
      omega
    · rw [Finset.erase_eq_of_notMem hmem] at ih
      omega

theorem knownLength_eq (ρ : Env) : ∀ (l : List Item) (n : E) (keys : List E), n.den ρ + l.length < 2 ^ 64 →
    (knownLength n keys l).den ρ = n.den ρ + countNew ρ (keys.map fun k => k.den ρ) l
  | [], n, keys, _ => by simp [knownLength, countNew]
  | i :: l, n, keys, hlt => by
    have hall : (andAll (keys.map fun k => B.not (i.key.eq k))).den ρ = decide (i.key.den ρ ∉ keys.map fun k => k.den ρ) := by
      rw [den_andAll, List.all_map, Bool.eq_iff_iff]
      simp only [List.all_eq_true, Function.comp, B.den, den_eq, Bool.not_eq_true', beq_eq_false_iff_ne, decide_eq_true_eq, List.mem_map, not_exists, not_and]
      exact ⟨fun h k hk e => h k hk e.symm, fun h k hk e => h k hk e.symm⟩
    have hn : (n.add (.ite (.and (andAll (keys.map fun k => .not (i.key.eq k))) i.present) (.const 1) (.const 0))).den ρ =
        n.den ρ + (if i.key.den ρ ∉ (keys.map fun k => k.den ρ) ∧ i.present.den ρ = true then 1 else 0) := by
      simp only [E.add, E.den, B.den, hall, Bool.and_eq_true, decide_eq_true_eq]
      simp only [List.length_cons] at hlt
      refine Nat.mod_eq_of_lt ?_
      split <;> omega
    simp only [List.length_cons] at hlt
    rw [knownLength, knownLength_eq ρ l _ _ (by rw [hn]; split <;> omega), hn]
    simp only [countNew, List.map_append, List.map_cons, List.map_nil]
    omega

/-- The counting constraint bounds the number of present keys. -/
theorem notOverfull_sound {ρ : Env} {cs : List B} {len : E} {l : List Item} (hs : sat cs ρ) (h : (notOverfull cs len l).den ρ = true)
    (hc : Consistent ρ l) (hl : l.length < 2 ^ 64) : AtMost ρ l (len.den ρ) := by
  intro S hS
  have h1 := countNew_ge ρ l [] S hc fun k hk => ⟨by simp, hS k hk⟩
  unfold notOverfull at h
  split at h
  · rename_i hd
    have h3 : l.length ≤ len.den ρ := of_decide_eq_true (definitely_sound hd hs)
    have := countNew_length ρ l []
    omega
  · have h2 := knownLength_eq ρ l (.const 0) [] (by simpa [E.den] using hl)
    simp only [E.le, B.den, decide_eq_true_eq] at h
    simp only [E.den, List.map_nil, Nat.zero_add] at h2
    omega

/-- The items after adding one to the base: the old ones, and at most the new one, with the value the layers
give it. -/
theorem items_add (ρ : Env) (base : List Item) (x : Item) : ∀ ls : List Layer, ∀ t ∈ items (base ++ [x]) ls, t ∈ items base ls ∨
    (t.key.den ρ = x.key.den ρ ∧ ((t.value.den ρ = x.value.den ρ ∧ t.present.den ρ = x.present.den ρ) ∨
      ∃ j ∈ items base ls, j.key.den ρ = x.key.den ρ ∧ t.value.den ρ = j.value.den ρ ∧ t.present.den ρ = j.present.den ρ))
  | [] => by
    intro t ht
    rcases List.mem_append.1 ht with ht | ht
    · exact .inl ht
    · rw [List.mem_singleton.1 ht]; exact .inr ⟨rfl, .inl ⟨rfl, rfl⟩⟩
  | l :: ls => by
    intro t ht
    rcases List.mem_append.1 ht with ht | ht
    · exact .inl (by simp [items, ht])
    · simp only [transform, List.mem_map, List.mem_filter] at ht
      obtain ⟨t0, ⟨ht0, hf⟩, rfl⟩ := ht
      rcases items_add ρ base x ls t0 ht0 with h | ⟨hk, h⟩
      · refine .inl ?_
        simp only [items, transform, List.mem_append, List.mem_map, List.mem_filter]
        exact .inr ⟨t0, ⟨h, hf⟩, rfl⟩
      · refine .inr ⟨hk, ?_⟩
        simp only [den_iteE, den_iteB]
        cases hfi : l.items.find? fun i => i.key.den ρ == t0.key.den ρ with
        | some k =>
          refine .inr ⟨k, by simp [items, List.mem_of_find?_eq_some hfi], ?_, rfl, rfl⟩
          have := List.find?_some hfi
          rw [← hk]; simpa using this
        | none =>
          rcases h with h | ⟨j, hj, hkj, h1, h2⟩
          · exact .inl h
          · refine .inr ⟨⟨j.key, iteE (l.items.map fun ki => (j.key.eq ki.key, ki.value)) j.value,
              iteB (l.items.map fun ki => (j.key.eq ki.key, ki.present)) j.present⟩, ?_, hkj, ?_, ?_⟩
            · simp only [items, transform, List.mem_append, List.mem_map, List.mem_filter]
              refine .inr ⟨j, ⟨hj, ?_⟩, rfl⟩
              simp only [List.all_eq_true, Bool.not_eq_true']
              intro i hi
              cases he : j.key.same i.key with
              | false => rfl
              | true =>
                rw [List.find?_eq_none] at hfi
                have := hfi i hi
                rw [← E.same_sound he ρ, hkj, hk] at this
                simp at this
            · simp only [den_iteE]
              rw [hkj, ← hk, hfi]; exact h1
            · simp only [den_iteB]
              rw [hkj, ← hk, hfi]; exact h2

theorem definitely_of {cs : List B} {b : B} (h : ∀ ρ, sat cs ρ → b.den ρ = true) : definitely cs b = true := by
  unfold definitely
  simpa using h

theorem items_length (base : List Item) (x : Item) (ls : List Layer) : (items (base ++ [x]) ls).length ≤ (items base ls).length + 1 := by
  have : ∀ ls : List Layer, ∃ more, items (base ++ [x]) ls = items base ls ++ more ∧ more.length ≤ 1 := by
    intro ls
    induction ls with
    | nil => exact ⟨[x], rfl, by simp⟩
    | cons l ls ih =>
      obtain ⟨m, hm, hl⟩ := ih
      refine ⟨transform l.items m, by simp only [items, hm, transform_append, List.append_assoc], ?_⟩
      simp only [transform, List.length_map]
      exact (List.length_filter_le _ _).trans hl
  obtain ⟨m, hm, hl⟩ := this ls
  rw [hm, List.length_append]; omega

/-- A map whose items are consistent under an assignment. -/
structure MapC (ρ : Env) (m : MapS) : Prop where
  caches : CacheOk m.base m.layers
  invs : NoReads m.invs
  consistent : Consistent ρ (items m.base m.layers)
  atMost : AtMost ρ (items m.base m.layers) ((lengthOf m m.layers).den ρ)
  length : (lengthOf m m.layers).den ρ < 2 ^ 64

/-- A read was answered by an item, or the map is empty and the answer is absent. -/
def Answered (ρ : Env) (m : MapS) (k v : Nat) (p : Bool) : Prop :=
  (∃ i ∈ items m.base m.layers, i.key.den ρ = k ∧ i.value.den ρ = v ∧ i.present.den ρ = p) ∨ (p = false ∧ (lengthOf m m.layers).den ρ = 0)

theorem exactMatch_mem {cs : List B} {key : E} {l : List Item} {cond : B} {i : Item} (h : exactMatch cs key l cond = some i) :
    i ∈ l ∧ (key.same i.key = true ∨ (key.symbolic = true ∧ definitely cs (.or (.not cond) (key.eq i.key)) = true)) := by
  unfold exactMatch at h
  cases hf : l.find? fun c => key.same c.key with
  | some c =>
    rw [hf] at h
    obtain rfl : c = i := by simpa using h
    have h2 := List.find?_some hf
    exact ⟨List.mem_of_find?_eq_some hf, .inl h2⟩
  | none =>
    rw [hf] at h
    simp only at h
    split at h
    · rename_i hs
      have h2 := List.find?_some h
      exact ⟨List.mem_of_find?_eq_some h, .inr ⟨hs, h2⟩⟩
    · simp at h

theorem exactMatch_single {cs : List B} {key : E} {u : Item} {cond : B} (h : exactMatch cs key [u] cond = none) :
    key.same u.key = false ∧ (key.symbolic = true → definitely cs (.or (.not cond) (key.eq u.key)) = false) := by
  unfold exactMatch at h
  cases hs : key.same u.key with
  | true => simp [hs] at h
  | false =>
    refine ⟨rfl, fun hsym => ?_⟩
    simp only [List.find?_cons, hs, List.find?_nil, hsym, if_true] at h
    cases hd : definitely cs (.or (.not cond) (key.eq u.key)) with
    | false => rfl
    | true => rw [hd] at h; simp at h

/-- What a read does to a state and why its answer is consistent with the others. -/
theorem get_cons (fuel : Nat) {st st' : State} {obj : Nat} {key : E} {r : E × B} (hn : NoReads (st.maps obj).invs)
    (hg : get (fuel + 1) st obj none key none (.lit true) = some (r, st')) :
    (∀ c ∈ st.constraints, c ∈ st'.constraints) ∧ (∀ o, o ≠ obj → st'.maps o = st.maps o) ∧ (st'.maps obj).invs = (st.maps obj).invs ∧
    ∀ ρ, sat st'.constraints ρ → MapC ρ (st.maps obj) → exactMatch st.constraints key [(st.maps obj).unknown] (.lit true) = none →
      (items (st.maps obj).base (st.maps obj).layers).length + 1 < 2 ^ 64 →
      MapC ρ (st'.maps obj) ∧ SameLayers (st'.maps obj).layers (st.maps obj).layers ∧ (st'.maps obj).baseLength = (st.maps obj).baseLength ∧
      (∃ more, items (st'.maps obj).base (st'.maps obj).layers = items (st.maps obj).base (st.maps obj).layers ++ more) ∧
      Answered ρ (st'.maps obj) (key.den ρ) (r.1.den ρ) (r.2.den ρ) := by
  set m := st.maps obj with hmd
  unfold get at hg
  simp only [← hmd, show skip m none = 0 from rfl, List.drop_zero] at hg
  split at hg
  · -- the map is empty
    rename_i hemp
    simp only [Option.some.injEq, Prod.mk.injEq] at hg
    obtain ⟨rfl, rfl⟩ := hg
    refine ⟨fun c hc => hc, fun _ _ => rfl, rfl, fun ρ _ hc _ _ => ⟨hc, rfl, rfl, ⟨[], by simp [hmd]⟩, .inr ⟨rfl, isEmpty_eq hemp ρ⟩⟩⟩
  · have hcs : (st.setMap obj (m.setLower 0 (known m.base m.layers).2)).constraints = st.constraints := rfl
    rw [hcs] at hg
    split at hg
    · -- a match
      rename_i i hx
      simp only [Option.some.injEq, Prod.mk.injEq] at hg
      obtain ⟨rfl, rfl⟩ := hg
      refine ⟨fun c hc => hc, fun o ho => setMap_other _ ho _, by rw [setMap_same]; rfl, fun ρ hs hc hnu hlt => ?_⟩
      rw [setMap_same]
      have hce := known_eq m.base m.layers hc.caches
      have hsl : SameLayers (m.setLower 0 (known m.base m.layers).2).layers m.layers :=
        SameLayers.setLower (ls := m.layers) (d := 0) (by rw [List.drop_zero]; exact hce.2.2)
      have hit : items (m.setLower 0 (known m.base m.layers).2).base (m.setLower 0 (known m.base m.layers).2).layers = items m.base m.layers := hsl.items
      have hlen : lengthOf (m.setLower 0 (known m.base m.layers).2) (m.setLower 0 (known m.base m.layers).2).layers = lengthOf m m.layers := hsl.lengthOf rfl
      refine ⟨⟨?_, hc.invs, by rw [hit]; exact hc.consistent, by rw [hit, hlen]; exact hc.atMost, by rw [hlen]; exact hc.length⟩, hsl, rfl, ⟨[], by rw [hit]; simp⟩, ?_⟩
      · show CacheOk m.base (m.layers.take 0 ++ (known m.base m.layers).2)
        simpa using hce.2.1
      · obtain ⟨hmem, hsd⟩ := exactMatch_mem hx
        have hu := exactMatch_single hnu
        have hin : i ∈ items m.base m.layers := by
          rcases List.mem_append.1 hmem with h | h
          · rwa [hce.1] at h
          · rw [List.mem_singleton.1 h] at hsd
            rcases hsd with h' | ⟨h1, h2⟩
            · rw [hu.1] at h'; simp at h'
            · rw [hu.2 h1] at h2; simp at h2
        refine .inl ⟨i, by rw [hit]; exact hin, ?_, rfl, rfl⟩
        rcases hsd with h' | ⟨-, h2⟩
        · exact (E.same_sound h' ρ).symm
        · have := definitely_sound h2 hs
          simp only [B.den, den_eq, Bool.not_true, Bool.false_or, beq_iff_eq] at this
          exact this.symm
    · -- a new item
      unfold getNew at hg
      simp only [setMap_same, show (st.setMap obj (m.setLower 0 (known m.base m.layers).2)).next = st.next from rfl] at hg
      split at hg
      · simp at hg
      · rename_i bs st2 hbs
        obtain ⟨bs', hbs'⟩ := applyInvs_state (get fuel) ⟨key, .var st.next, .var st.next⟩ (.lit true)
          ((({ st.setMap obj (m.setLower 0 (known m.base m.layers).2) with next := st.next + 1 } : State).add (hintConstraint (.lit true) (.var st.next) none)).setMap obj
            { m.setLower 0 (known m.base m.layers).2 with base := (m.setLower 0 (known m.base m.layers).2).base ++ [⟨key, .var st.next, .var st.next⟩] })
          (invs := (m.setLower 0 (known m.base m.layers).2).invs) hn
        have hbs2 : some (bs, st2) = some (bs', _) := hbs.symm.trans hbs'
        simp only [Option.some.injEq, Prod.mk.injEq] at hbs2 hg
        obtain ⟨rfl, rfl⟩ := hbs2
        obtain ⟨rfl, rfl⟩ := hg
        set item : Item := ⟨key, .var st.next, .var st.next⟩ with hitem
        set m1 : MapS := { m.setLower 0 (known m.base m.layers).2 with base := (m.setLower 0 (known m.base m.layers).2).base ++ [item] } with hm1
        refine ⟨?_, ?_, ?_, fun ρ hs hc hnu hlt => ?_⟩
        · intro c hc
          simp only [State.add, State.setMap, overfullCheck, List.mem_append]
          exact .inr (.inr hc)
        · intro o ho
          simp [State.add, State.setMap, overfullCheck, ho]
        · simp [State.add, State.setMap, overfullCheck, MapS.setLower, hm1]
        · have hce := known_eq m.base m.layers hc.caches
          have hsl1 : SameLayers m1.layers m.layers :=
            SameLayers.setLower (ls := m.layers) (d := 0) (by rw [List.drop_zero]; exact hce.2.2)
          have hc1 : CacheOk m1.base m1.layers := by
            show CacheOk (m.base ++ [item]) (m.layers.take 0 ++ (known m.base m.layers).2)
            rw [List.take_zero, List.nil_append]
            exact CacheOk.append _ _ _ hce.2.1
          have hce1 := known_eq m1.base m1.layers hc1
          have hk1 : (known m1.base m1.layers).1 = items (m.base ++ [item]) m.layers := hce1.1.trans hsl1.items
          have hsl2 : SameLayers (known m1.base m1.layers).2 m.layers := hce1.2.2.trans hsl1
          obtain ⟨S1, hS1⟩ : ∃ S1 : State, S1 = ((({ st.setMap obj (m.setLower 0 (known m.base m.layers).2) with next := st.next + 1 } : State).add (hintConstraint (.lit true) (.var st.next) none)).setMap obj m1) := ⟨_, rfl⟩
          rw [← hS1] at hs ⊢
          have hS1m : S1.maps obj = m1 := by rw [hS1, setMap_same]
          have ho2 : (overfullCheck S1 obj 0).2.maps obj = m1.setLower 0 (known m1.base m1.layers).2 := by
            simp only [overfullCheck, setMap_same, hS1m, List.drop_zero]
          have ho1 : (overfullCheck S1 obj 0).1 = notOverfull S1.constraints (lengthOf m1 m1.layers) (known m1.base m1.layers).1 := by
            simp only [overfullCheck, hS1m, List.drop_zero]
          have hoc : (overfullCheck S1 obj 0).2.constraints = S1.constraints := rfl
          have hm3 : (m1.setLower 0 (known m1.base m1.layers).2).layers = (known m1.base m1.layers).2 := by
            simp [MapS.setLower]
          have hs1 : sat S1.constraints ρ := fun c hc => hs c (by simp only [State.add, List.mem_append]; exact .inr (by rw [hoc]; exact hc))
          have hs2 : ∀ c ∈ sameAs item ((known m.base m.layers).1 ++ [m.unknown]), c.den ρ = true := fun c hc =>
            hs c (by simp only [State.add, List.mem_append]; exact .inl (.inl (.inl hc)))
          have hs3 : (overfullCheck S1 obj 0).1.den ρ = true := hs _ (by simp [State.add])
          have hsame : ∀ j ∈ items m.base m.layers, j.key.den ρ = key.den ρ → item.value.den ρ = j.value.den ρ ∧ item.present.den ρ = j.present.den ρ := by
            intro j hj hk
            have := hs2 (implies (item.key.eq j.key) (.and (item.value.eq j.value) (.iff item.present j.present)))
              (by simp only [sameAs, List.mem_map]; exact ⟨j, by rw [hce.1]; simp [hj], rfl⟩)
            rw [den_implies] at this
            have := this (by rw [den_eq]; simp [hitem, hk])
            simpa [B.den, den_eq] using this
          have hnew : ∀ t ∈ items (m.base ++ [item]) m.layers, t ∈ items m.base m.layers ∨
              (t.key.den ρ = key.den ρ ∧ t.value.den ρ = item.value.den ρ ∧ t.present.den ρ = item.present.den ρ) := by
            intro t ht
            rcases items_add ρ m.base item m.layers t ht with h | ⟨hk, ⟨h1, h2⟩ | ⟨j, hj, hkj, h1, h2⟩⟩
            · exact .inl h
            · exact .inr ⟨hk, h1, h2⟩
            · have := hsame j hj hkj
              exact .inr ⟨hk, h1.trans this.1.symm, h2.trans this.2.symm⟩
          have hcons : Consistent ρ (items (m.base ++ [item]) m.layers) := by
            intro a ha b hb hab
            rcases hnew a ha with h | ⟨hk, h1, h2⟩ <;> rcases hnew b hb with h' | ⟨hk', h1', h2'⟩
            · exact hc.consistent a h b h' hab
            · have := hsame a h (hab.trans hk')
              exact ⟨this.1.symm.trans h1'.symm, this.2.symm.trans h2'.symm⟩
            · have := hsame b h' (hab.symm.trans hk)
              exact ⟨h1.trans this.1, h2.trans this.2⟩
            · exact ⟨h1.trans h1'.symm, h2.trans h2'.symm⟩
          have hlen : lengthOf (m1.setLower 0 (known m1.base m1.layers).2) (m1.setLower 0 (known m1.base m1.layers).2).layers = lengthOf m m.layers := by
            rw [hm3]; exact hsl2.lengthOf rfl
          have hit : items (m1.setLower 0 (known m1.base m1.layers).2).base (m1.setLower 0 (known m1.base m1.layers).2).layers = items (m.base ++ [item]) m.layers := by
            rw [hm3]; exact hsl2.items
          show MapC ρ ((overfullCheck S1 obj 0).2.maps obj) ∧ SameLayers ((overfullCheck S1 obj 0).2.maps obj).layers m.layers ∧
            ((overfullCheck S1 obj 0).2.maps obj).baseLength = m.baseLength ∧
            (∃ more, items ((overfullCheck S1 obj 0).2.maps obj).base ((overfullCheck S1 obj 0).2.maps obj).layers = items m.base m.layers ++ more) ∧
            Answered ρ ((overfullCheck S1 obj 0).2.maps obj) (key.den ρ) (item.value.den ρ) (item.present.den ρ)
          rw [ho2]
          obtain ⟨more, hmore⟩ := items_append m.base [item] m.layers
          refine ⟨⟨by rw [hm3]; exact hce1.2.1, hn, by rw [hit]; exact hcons, ?_, by rw [hlen]; exact hc.length⟩, by rw [hm3]; exact hsl2, rfl,
            ⟨more, by rw [hit]; exact hmore⟩, ?_⟩
          · rw [hit, hlen]
            rw [ho1, hk1, hsl1.lengthOf (m := m1) (m' := m) rfl] at hs3
            refine notOverfull_sound hs1 hs3 hcons ?_
            have := items_length m.base item m.layers
            omega
          · obtain ⟨t, ht, hkt⟩ := items_has_key (base := m.base ++ [item]) (ls := m.layers) (k := key) (.inl ⟨item, by simp, rfl⟩)
            refine .inl ⟨t, by rw [hit]; exact ht, hkt ρ, ?_⟩
            rcases hnew t ht with h | ⟨-, h1, h2⟩
            · have := hsame t h (hkt ρ)
              exact ⟨this.1.symm, this.2.symm⟩
            · exact ⟨h1, h2⟩

/-- What a new layer with one item leaves consistent. -/
theorem push_cons {ρ : Env} {m : MapS} {key value : E} {b : Bool} {len : E} {v : Nat} {p : Bool} (hc : MapC ρ m) (ha : Answered ρ m (key.den ρ) v p)
    (hl : len.den ρ + (if p then 1 else 0) = (lengthOf m m.layers).den ρ + (if b then 1 else 0)) (hlt : len.den ρ < 2 ^ 64) :
    MapC ρ { m with layers := ⟨[⟨key, value, .lit b⟩], len, (0, [])⟩ :: m.layers } := by
  have hmem : ∀ t ∈ items m.base (⟨[⟨key, value, .lit b⟩], len, (0, [])⟩ :: m.layers),
      (t.key.den ρ = key.den ρ ∧ t.value.den ρ = value.den ρ ∧ t.present.den ρ = b) ∨
      (t.key.den ρ ≠ key.den ρ ∧ ∃ j ∈ items m.base m.layers, t.key.den ρ = j.key.den ρ ∧ t.value.den ρ = j.value.den ρ ∧ t.present.den ρ = j.present.den ρ) := by
    intro t ht
    rcases List.mem_append.1 ht with ht | ht
    · rw [List.mem_singleton.1 ht]; exact .inl ⟨rfl, rfl, rfl⟩
    · obtain ⟨j, hj, hk, hv, hp⟩ := mem_transform ht
      have hv := hv ρ
      have hp := hp ρ
      by_cases he : j.key.den ρ = key.den ρ
      · refine .inl ⟨by rw [hk, he], ?_, ?_⟩
        · rw [hv]; simp [he]
        · rw [hp]; simp [he, B.den]
      · refine .inr ⟨by rw [hk]; exact he, j, hj, by rw [hk], ?_, ?_⟩
        · rw [hv]; simp [Ne.symm he]
        · rw [hp]; simp [Ne.symm he]
  refine ⟨⟨Nat.zero_le _, rfl, hc.caches⟩, hc.invs, ?_, ?_, hlt⟩
  · intro s hs t ht hst
    rcases hmem s hs with ⟨h1, h2, h3⟩ | ⟨h1, j, hj, h2, h3, h4⟩ <;> rcases hmem t ht with ⟨h1', h2', h3'⟩ | ⟨h1', j', hj', h2', h3', h4'⟩
    · exact ⟨h2.trans h2'.symm, h3.trans h3'.symm⟩
    · exact absurd (hst.symm.trans h1) h1'
    · exact absurd (hst.trans h1') h1
    · have := hc.consistent j hj j' hj' (h2.symm.trans (hst.trans h2'))
      exact ⟨h3.trans (this.1.trans h3'.symm), h4.trans (this.2.trans h4'.symm)⟩
  · intro S hS
    show S.card ≤ len.den ρ
    -- the present keys other than the new one were present
    have hT : ∀ k ∈ S.erase (key.den ρ), ∃ i ∈ items m.base m.layers, i.key.den ρ = k ∧ i.present.den ρ = true := by
      intro k hk
      rw [Finset.mem_erase] at hk
      obtain ⟨t, ht, h1, h2⟩ := hS k hk.2
      rcases hmem t ht with ⟨h3, -, -⟩ | ⟨-, j, hj, h3, -, h5⟩
      · exact absurd (h1.symm.trans h3) hk.1
      · exact ⟨j, hj, h3.symm.trans h1, h5.symm.trans h2⟩
    have hold : (S.erase (key.den ρ)).card + (if p then 1 else 0) ≤ (lengthOf m m.layers).den ρ := by
      cases p with
      | false => simpa using hc.atMost _ hT
      | true =>
        rcases ha with ⟨i, hi, h1, -, h3⟩ | ⟨h, -⟩
        · have := hc.atMost (insert (key.den ρ) (S.erase (key.den ρ))) (by
            intro k hk
            rcases Finset.mem_insert.1 hk with rfl | hk
            · exact ⟨i, hi, h1, h3⟩
            · exact hT k hk)
          rw [Finset.card_insert_of_notMem (by simp)] at this
          simpa using this
        · simp at h
    by_cases hk : key.den ρ ∈ S
    · obtain ⟨t, ht, h1, h2⟩ := hS _ hk
      have hb : b = true := by
        rcases hmem t ht with ⟨-, -, h3⟩ | ⟨h3, -⟩
        · exact h3.symm.trans h2
        · exact absurd h1 h3
      rw [Finset.card_erase_of_mem hk] at hold
      subst hb
      simp only [if_true] at hl
      have := Finset.card_pos.2 ⟨_, hk⟩
      omega
    · rw [Finset.erase_eq_of_notMem hk] at hold
      omega

/-- The unknown item does not answer a read of a key, and the number of known items is far from 2^64. -/
def PlainRead (st : State) (obj : Nat) (key : E) : Prop :=
  exactMatch st.constraints key [(st.maps obj).unknown] (.lit true) = none ∧ (items (st.maps obj).base (st.maps obj).layers).length + 1 < 2 ^ 64

theorem constantOr_eq {cs : List B} {b p : B} {ρ : Env} (hs : sat cs ρ) (h : constantOr cs b = some p) : p.den ρ = b.den ρ := by
  obtain ⟨n, hn⟩ := B.exists_within b
  obtain ⟨p', h', -, e⟩ := constantOr_some hs hn
  rw [h] at h'
  obtain rfl : p = p' := by simpa using h'
  exact e

theorem flattens_le {a b : List Layer} (h : SameLayers a b) : a.length = b.length := by
  have := congrArg List.length h
  simpa [SameLayers] using this

theorem set_cons (fuel : Nat) {st st' : State} {obj : Nat} {key value : E} (hn : NoReads (st.maps obj).invs)
    (hg : Verif.Tool.GhostMap.set (fuel + 1) st obj key value = some st') :
    (∀ c ∈ st.constraints, c ∈ st'.constraints) ∧ (∀ o, o ≠ obj → st'.maps o = st.maps o) ∧ (st'.maps obj).invs = (st.maps obj).invs ∧
    ∀ ρ, sat st'.constraints ρ → MapC ρ (st.maps obj) → PlainRead st obj key → flattens (st.maps obj).layers key = false →
      (lengthOf (st.maps obj) (st.maps obj).layers).den ρ + 1 < 2 ^ 64 →
      MapC ρ (st'.maps obj) ∧ (st'.maps obj).version = (st.maps obj).version + 1 := by
  unfold Verif.Tool.GhostMap.set at hg
  split at hg
  · simp at hg
  · rename_i r st1 hg1
    obtain ⟨h1, h2, h3, h4⟩ := get_cons fuel hn hg1
    split at hg
    · simp at hg
    · rename_i p hp
      obtain rfl : _ = st' := by simpa using hg
      refine ⟨h1, fun o ho => by rw [setMap_other _ ho]; exact h2 o ho, ?_, fun ρ hs hc hpl hf hlt => ?_⟩
      · rw [setMap_same]
        unfold withItemLayer
        split
        · split <;> exact h3
        · exact h3
      · obtain ⟨hm, hsl, hbl, -, ha⟩ := h4 ρ hs hc hpl.1 hpl.2
        rw [setMap_same]
        unfold withItemLayer
        simp only [flattens_same hsl, hf, Bool.false_eq_true, if_false]
        have hpd : p.den ρ = r.2.den ρ := constantOr_eq (show sat st1.constraints ρ from hs) hp
        have hle : lengthOf (st1.maps obj) (st1.maps obj).layers = lengthOf (st.maps obj) (st.maps obj).layers := hsl.lengthOf hbl
        have hden : ((lengthOf (st1.maps obj) (st1.maps obj).layers).add (.ite p (.const 0) (.const 1))).den ρ =
            (lengthOf (st.maps obj) (st.maps obj).layers).den ρ + (if r.2.den ρ then 0 else 1) := by
          rw [hle]
          simp only [E.add, E.den, hpd]
          refine Nat.mod_eq_of_lt ?_
          split <;> omega
        refine ⟨push_cons hm ha ?_ ?_, ?_⟩
        · rw [hden, hle]; cases r.2.den ρ <;> simp
        · rw [hden]; split <;> omega
        · simp [MapS.version, flattens_le hsl]

theorem remove_cons (fuel : Nat) {st st' : State} {obj : Nat} {key : E} (hn : NoReads (st.maps obj).invs)
    (hg : remove (fuel + 1) st obj key = some st') :
    (∀ c ∈ st.constraints, c ∈ st'.constraints) ∧ (∀ o, o ≠ obj → st'.maps o = st.maps o) ∧ (st'.maps obj).invs = (st.maps obj).invs ∧
    ∀ ρ, sat st'.constraints ρ → MapC ρ (st.maps obj) → PlainRead st obj key → flattens (st.maps obj).layers key = false →
      MapC ρ (st'.maps obj) ∧ (st'.maps obj).version = (st.maps obj).version + 1 := by
  unfold remove at hg
  split at hg
  · simp at hg
  · rename_i r st1 hg1
    obtain ⟨h1, h2, h3, h4⟩ := get_cons fuel hn hg1
    obtain rfl := Option.some.inj hg
    refine ⟨h1, fun o ho => by rw [setMap_other _ ho]; exact h2 o ho, ?_, fun ρ hs hc hpl hf => ?_⟩
    · rw [setMap_same]
      unfold withItemLayer
      split
      · split <;> exact h3
      · exact h3
    · obtain ⟨hm, hsl, hbl, -, ha⟩ := h4 ρ hs hc hpl.1 hpl.2
      rw [setMap_same]
      unfold withItemLayer
      simp only [flattens_same hsl, hf, Bool.false_eq_true, if_false]
      have hle : lengthOf (st1.maps obj) (st1.maps obj).layers = lengthOf (st.maps obj) (st.maps obj).layers := hsl.lengthOf hbl
      have hlt := hc.length
      have hpos : r.2.den ρ = true → 1 ≤ (lengthOf (st.maps obj) (st.maps obj).layers).den ρ := by
        intro hr
        rcases ha with ⟨i, hi, e1, -, e2⟩ | ⟨e, -⟩
        · have := hm.atMost {key.den ρ} (by
            intro k hk
            rw [Finset.mem_singleton.1 hk]
            exact ⟨i, hi, e1, e2.trans hr⟩)
          rw [hle] at this
          simpa using this
        · rw [hr] at e; simp at e
      have hden : ((lengthOf (st1.maps obj) (st1.maps obj).layers).add (.ite r.2 (.const (2 ^ 64 - 1)) (.const 0))).den ρ =
          (lengthOf (st.maps obj) (st.maps obj).layers).den ρ - (if r.2.den ρ then 1 else 0) := by
        rw [hle]
        simp only [E.add, E.den]
        cases hr : r.2.den ρ with
        | false => simpa using hlt
        | true =>
          have := hpos hr
          simp only [if_true]
          omega
      refine ⟨push_cons hm ha ?_ ?_, ?_⟩
      · rw [hden, hle]
        cases hr : r.2.den ρ with
        | false => simp
        | true => have := hpos hr; simp only [if_true]; simp; omega
      · rw [hden]; split <;> omega
      · simp [MapS.version, flattens_le hsl]

/-- What a read of a program said: the object, its version and length expression then, the key, and the answer. -/
structure Entry where
  obj : Nat
  ver : Nat
  len : E
  key : E
  value : E
  present : B

/-- The verifier's run of a program, with what its reads said. -/
noncomputable def Prog.log (fuel : Nat) : State → Prog → Option (State × List Entry)
  | st, .done => some (st, [])
  | st, .get obj key k =>
    match GhostMap.get fuel st obj none key none (.lit true) with
    | none => none
    | some (r, st') =>
      (Prog.log fuel st' (k r.1 r.2)).map fun x =>
        (x.1, ⟨obj, (st.maps obj).version, lengthOf (st.maps obj) (st.maps obj).layers, key, r.1, r.2⟩ :: x.2)
  | st, .length obj k => Prog.log fuel st (k (lengthOf (st.maps obj) (st.maps obj).layers))
  | st, .set obj key value k =>
    match GhostMap.set fuel st obj key value with
    | none => none
    | some st => Prog.log fuel st k
  | st, .remove obj key k =>
    match GhostMap.remove fuel st obj key with
    | none => none
    | some st => Prog.log fuel st k
  | st, .assume c k => Prog.log fuel (st.add [c]) k

/-- A program all of whose reads are plain and whose updates make new versions, of maps with room for another key. -/
def Prog.Plain (fuel : Nat) (ρ : Env) : State → Prog → Prop
  | _, .done => True
  | st, .get obj key k => PlainRead st obj key ∧
    ∀ r st', GhostMap.get fuel st obj none key none (.lit true) = some (r, st') → Prog.Plain fuel ρ st' (k r.1 r.2)
  | st, .length obj k => Prog.Plain fuel ρ st (k (lengthOf (st.maps obj) (st.maps obj).layers))
  | st, .set obj key value k => PlainRead st obj key ∧ flattens (st.maps obj).layers key = false ∧
    (lengthOf (st.maps obj) (st.maps obj).layers).den ρ + 1 < 2 ^ 64 ∧
    ∀ st', GhostMap.set fuel st obj key value = some st' → Prog.Plain fuel ρ st' k
  | st, .remove obj key k => PlainRead st obj key ∧ flattens (st.maps obj).layers key = false ∧
    ∀ st', GhostMap.remove fuel st obj key = some st' → Prog.Plain fuel ρ st' k
  | st, .assume c k => Prog.Plain fuel ρ (st.add [c]) k

/-- What the answers about one version of one map say to each other. -/
def Agreeing (ρ : Env) (obj v : Nat) (L : List Entry) : Prop :=
  (∀ e ∈ L, ∀ e' ∈ L, e.obj = obj → e.ver = v → e'.obj = obj → e'.ver = v → e.key.den ρ = e'.key.den ρ →
    e.present.den ρ = e'.present.den ρ ∧ (e.present.den ρ = true → e.value.den ρ = e'.value.den ρ)) ∧
  (∀ e ∈ L, e.obj = obj → e.ver = v → ∀ S : Finset Nat,
    (∀ k ∈ S, ∃ e' ∈ L, e'.obj = obj ∧ e'.ver = v ∧ e'.key.den ρ = k ∧ e'.present.den ρ = true) → S.card ≤ e.len.den ρ)

/-- Where a run is, and what its reads said so far. -/
structure Steady (ρ : Env) (st : State) (L : List Entry) : Prop where
  maps : ∀ o, MapC ρ (st.maps o)
  ver : ∀ e ∈ L, e.ver ≤ (st.maps e.obj).version
  now : ∀ e ∈ L, e.ver = (st.maps e.obj).version → e.len = lengthOf (st.maps e.obj) (st.maps e.obj).layers ∧
    Answered ρ (st.maps e.obj) (e.key.den ρ) (e.value.den ρ) (e.present.den ρ)
  past : ∀ o v, v < (st.maps o).version → Agreeing ρ o v L

theorem Steady.agreeing_now {ρ : Env} {st : State} {L : List Entry} (h : Steady ρ st L) (o : Nat) : Agreeing ρ o (st.maps o).version L := by
  have hm := h.maps o
  refine ⟨fun e he e' he' h1 h2 h1' h2' hk => ?_, fun e he h1 h2 S hS => ?_⟩
  · subst h1
    have ha := (h.now e he h2).2
    have ha' := (h.now e' he' (by rw [h2', h1'])).2
    rw [h1'] at ha'
    rcases ha with ⟨i, hi, a1, a2, a3⟩ | ⟨a1, a2⟩ <;> rcases ha' with ⟨j, hj, b1, b2, b3⟩ | ⟨b1, b2⟩
    · have := hm.consistent i hi j hj (by rw [a1, b1, hk])
      exact ⟨by rw [← a3, ← b3, this.2], fun _ => by rw [← a2, ← b2, this.1]⟩
    · have : e.present.den ρ = false := by
        cases hp : e.present.den ρ with
        | false => rfl
        | true =>
          have := hm.atMost {i.key.den ρ} (by
            intro k hk'
            exact ⟨i, hi, (Finset.mem_singleton.1 hk').symm, by rw [a3, hp]⟩)
          rw [b2] at this; simp at this
      exact ⟨by rw [this, b1], fun h => by rw [this] at h; simp at h⟩
    · have : e'.present.den ρ = false := by
        cases hp : e'.present.den ρ with
        | false => rfl
        | true =>
          have := hm.atMost {j.key.den ρ} (by
            intro k hk'
            exact ⟨j, hj, (Finset.mem_singleton.1 hk').symm, by rw [b3, hp]⟩)
          rw [a2] at this; simp at this
      exact ⟨by rw [this, a1], fun h => by rw [a1] at h; simp at h⟩
    · exact ⟨by rw [a1, b1], fun h => by rw [a1] at h; simp at h⟩
  · rw [(h.now e he (by rw [h2, h1])).1, h1]
    refine hm.atMost S fun k hk => ?_
    obtain ⟨e', he', h1', h2', rfl, hp⟩ := hS k hk
    have ha' := (h.now e' he' (by rw [h2', h1'])).2
    rw [h1'] at ha'
    rcases ha' with ⟨j, hj, b1, -, b3⟩ | ⟨b1, -⟩
    · exact ⟨j, hj, b1, b3.trans hp⟩
    · rw [hp] at b1; simp at b1

theorem Agreeing.skip {ρ : Env} {o v : Nat} {L : List Entry} {e : Entry} (he : ¬(e.obj = o ∧ e.ver = v)) (h : Agreeing ρ o v L) :
    Agreeing ρ o v (L ++ [e]) := by
  have hm : ∀ x ∈ L ++ [e], x.obj = o → x.ver = v → x ∈ L := by
    intro x hx h1 h2
    rcases List.mem_append.1 hx with hx | hx
    · exact hx
    · rw [List.mem_singleton.1 hx] at h1 h2; exact absurd ⟨h1, h2⟩ he
  refine ⟨fun x hx y hy h1 h2 h1' h2' => h.1 x (hm x hx h1 h2) y (hm y hy h1' h2') h1 h2 h1' h2', fun x hx h1 h2 S hS => ?_⟩
  refine h.2 x (hm x hx h1 h2) h1 h2 S fun k hk => ?_
  obtain ⟨y, hy, a, b, c⟩ := hS k hk
  exact ⟨y, hm y hy a b, a, b, c⟩

/-- No constraint is lost in a run. -/
theorem log_mono (fuel : Nat) : ∀ (p : Prog) (st st' : State) (L : List Entry), (∀ o, NoReads (st.maps o).invs) →
    p.log (fuel + 1) st = some (st', L) → ∀ c ∈ st.constraints, c ∈ st'.constraints := by
  have inv : ∀ {st st' : State} {obj : Nat}, (∀ o, NoReads (st.maps o).invs) → (∀ o, o ≠ obj → st'.maps o = st.maps o) →
      (st'.maps obj).invs = (st.maps obj).invs → ∀ o, NoReads (st'.maps o).invs := by
    intro st st' obj hn h2 h3 o
    by_cases ho : o = obj
    · subst ho; rw [h3]; exact hn o
    · rw [h2 o ho]; exact hn o
  intro p
  induction p with
  | done => intro st st' L _ h c hc; simp only [Prog.log, Option.some.injEq, Prod.mk.injEq] at h; rw [← h.1]; exact hc
  | get obj key k ih =>
    intro st st' L hn h c hc
    unfold Prog.log at h
    split at h
    · simp at h
    · rename_i r st1 hg
      obtain ⟨h1, h2, h3, -⟩ := get_cons fuel (hn obj) hg
      rw [Option.map_eq_some_iff] at h
      obtain ⟨x, hx, e⟩ := h
      obtain ⟨rfl, -⟩ := Prod.mk.inj e
      exact ih r.1 r.2 st1 x.1 x.2 (inv hn h2 h3) hx c (h1 c hc)
  | length obj k ih => intro st st' L hn h; exact ih _ st st' L hn h
  | set obj key value k ih =>
    intro st st' L hn h c hc
    unfold Prog.log at h
    split at h
    · simp at h
    · rename_i st1 hg
      obtain ⟨h1, h2, h3, -⟩ := set_cons fuel (hn obj) hg
      exact ih st1 st' L (inv hn h2 h3) h c (h1 c hc)
  | remove obj key k ih =>
    intro st st' L hn h c hc
    unfold Prog.log at h
    split at h
    · simp at h
    · rename_i st1 hg
      obtain ⟨h1, h2, h3, -⟩ := remove_cons fuel (hn obj) hg
      exact ih st1 st' L (inv hn h2 h3) h c (h1 c hc)
  | assume a k ih =>
    intro st st' L hn h c hc
    exact ih (st.add [a]) st' L hn h c (by simp only [State.add, List.mem_append]; exact .inr hc)

theorem Steady.push {ρ : Env} {st st' : State} {L : List Entry} {obj : Nat} (h : Steady ρ st L) (h2 : ∀ o, o ≠ obj → st'.maps o = st.maps o)
    (hm : MapC ρ (st'.maps obj)) (hv : (st'.maps obj).version = (st.maps obj).version + 1) : Steady ρ st' L := by
  refine ⟨fun o => ?_, fun e he => ?_, fun e he hev => ?_, fun o v hlt => ?_⟩
  · by_cases ho : o = obj
    · subst ho; exact hm
    · rw [h2 o ho]; exact h.maps o
  · by_cases ho : e.obj = obj
    · rw [ho, hv]; have := h.ver e he; rw [ho] at this; omega
    · rw [h2 _ ho]; exact h.ver e he
  · by_cases ho : e.obj = obj
    · have := h.ver e he; rw [ho] at this hev; omega
    · rw [h2 _ ho] at hev ⊢; exact h.now e he hev
  · by_cases ho : o = obj
    · subst ho
      rcases Nat.lt_or_ge v (st.maps o).version with h' | h'
      · exact h.past o v h'
      · have : v = (st.maps o).version := by omega
        subst this
        exact h.agreeing_now o
    · rw [h2 o ho] at hlt; exact h.past o v hlt

theorem log_steady (fuel : Nat) (ρ : Env) : ∀ (p : Prog) (st st' : State) (L0 L : List Entry), Steady ρ st L0 → p.Plain (fuel + 1) ρ st →
    p.log (fuel + 1) st = some (st', L) → sat st'.constraints ρ → Steady ρ st' (L0 ++ L) := by
  intro p
  induction p with
  | done =>
    intro st st' L0 L h _ hl _
    simp only [Prog.log, Option.some.injEq, Prod.mk.injEq] at hl
    rw [← hl.1, ← hl.2, List.append_nil]; exact h
  | get obj key k ih =>
    intro st st' L0 L h hp hl hs
    unfold Prog.log at hl
    split at hl
    · simp at hl
    · rename_i r st1 hg
      rw [Option.map_eq_some_iff] at hl
      obtain ⟨x, hx, e⟩ := hl
      obtain ⟨rfl, rfl⟩ := Prod.mk.inj e
      obtain ⟨h1, h2, h3, h4⟩ := get_cons fuel (h.maps obj).invs hg
      have hn1 : ∀ o, NoReads (st1.maps o).invs := by
        intro o
        by_cases ho : o = obj
        · subst ho; rw [h3]; exact (h.maps o).invs
        · rw [h2 o ho]; exact (h.maps o).invs
      have hs1 : sat st1.constraints ρ := fun c hc => hs c (log_mono fuel _ st1 x.1 x.2 hn1 hx c hc)
      obtain ⟨hm, hsl, hbl, ⟨more, hmore⟩, ha⟩ := h4 ρ hs1 (h.maps obj) hp.1.1 hp.1.2
      have hver : ∀ o, (st1.maps o).version = (st.maps o).version := by
        intro o
        by_cases ho : o = obj
        · subst ho; exact flattens_le hsl
        · rw [h2 o ho]
      have hlen : lengthOf (st1.maps obj) (st1.maps obj).layers = lengthOf (st.maps obj) (st.maps obj).layers := hsl.lengthOf hbl
      rw [show ∀ (a : Entry) (l : List Entry), L0 ++ a :: l = (L0 ++ [a]) ++ l from fun a l => by simp]
      refine ih r.1 r.2 st1 x.1 _ x.2 ⟨fun o => ?_, ?_, ?_, fun o v hv => ?_⟩ (hp.2 r st1 hg) hx hs
      · by_cases ho : o = obj
        · subst ho; exact hm
        · rw [h2 o ho]; exact h.maps o
      · intro e he
        rw [hver]
        rcases List.mem_append.1 he with he | he
        · exact h.ver e he
        · rw [List.mem_singleton.1 he]
      · intro e he hev
        rcases List.mem_append.1 he with he | he
        · rw [hver] at hev
          have := h.now e he hev
          by_cases ho : e.obj = obj
          · rw [ho] at this ⊢
            refine ⟨by rw [this.1, hlen], ?_⟩
            rcases this.2 with ⟨i, hi, a⟩ | ⟨a, b⟩
            · exact .inl ⟨i, by rw [hmore]; simp [hi], a⟩
            · exact .inr ⟨a, by rw [hlen]; exact b⟩
          · rw [h2 _ ho]; exact this
        · rw [List.mem_singleton.1 he]
          exact ⟨hlen.symm, ha⟩
      · rw [hver] at hv
        refine (h.past o v hv).skip ?_
        rintro ⟨rfl, rfl⟩
        exact absurd hv (Nat.lt_irrefl _)
  | length obj k ih => intro st st' L0 L h hp hl hs; exact ih _ st st' L0 L h hp hl hs
  | set obj key value k ih =>
    intro st st' L0 L h hp hl hs
    unfold Prog.log at hl
    split at hl
    · simp at hl
    · rename_i st1 hg
      obtain ⟨h1, h2, h3, h4⟩ := set_cons fuel (h.maps obj).invs hg
      have hn1 : ∀ o, NoReads (st1.maps o).invs := by
        intro o
        by_cases ho : o = obj
        · subst ho; rw [h3]; exact (h.maps o).invs
        · rw [h2 o ho]; exact (h.maps o).invs
      have hs1 : sat st1.constraints ρ := fun c hc => hs c (log_mono fuel _ st1 st' L hn1 hl c hc)
      obtain ⟨hm, hv⟩ := h4 ρ hs1 (h.maps obj) hp.1 hp.2.1 hp.2.2.1
      exact ih st1 st' L0 L (h.push h2 hm hv) (hp.2.2.2 st1 hg) hl hs
  | remove obj key k ih =>
    intro st st' L0 L h hp hl hs
    unfold Prog.log at hl
    split at hl
    · simp at hl
    · rename_i st1 hg
      obtain ⟨h1, h2, h3, h4⟩ := remove_cons fuel (h.maps obj).invs hg
      have hn1 : ∀ o, NoReads (st1.maps o).invs := by
        intro o
        by_cases ho : o = obj
        · subst ho; rw [h3]; exact (h.maps o).invs
        · rw [h2 o ho]; exact (h.maps o).invs
      have hs1 : sat st1.constraints ρ := fun c hc => hs c (log_mono fuel _ st1 st' L hn1 hl c hc)
      obtain ⟨hm, hv⟩ := h4 ρ hs1 (h.maps obj) hp.1 hp.2.1
      exact ih st1 st' L0 L (h.push h2 hm hv) (hp.2.2 st1 hg) hl hs
  | assume a k ih =>
    intro st st' L0 L h hp hl hs
    exact ih (st.add [a]) st' L0 L ⟨h.maps, h.ver, h.now, h.past⟩ hp hl hs

/-- Maps as they are created: nothing is known of them. -/
def Fresh (ρ : Env) (st : State) : Prop :=
  ∀ o, (st.maps o).base = [] ∧ (st.maps o).layers = [] ∧ NoReads (st.maps o).invs ∧ (st.maps o).baseLength.den ρ < 2 ^ 64

theorem Fresh.steady {ρ : Env} {st : State} (h : Fresh ρ st) : Steady ρ st [] := by
  refine ⟨fun o => ?_, by simp, by simp, fun o v hv => ?_⟩
  · obtain ⟨hb, hl, hn, hlt⟩ := h o
    refine ⟨by rw [hl]; trivial, hn, ?_, ?_, by rw [hl]; exact hlt⟩
    · rw [hb, hl]; intro i hi; simp [items] at hi
    · rw [hb, hl]
      intro S hS
      have : S = ∅ := by
        by_contra hne
        obtain ⟨k, hk⟩ := Finset.nonempty_iff_ne_empty.2 hne
        obtain ⟨i, hi, -⟩ := hS k hk
        simp [items] at hi
      simp [this]
  · rw [MapS.version, (h o).2.1] at hv; simp at hv

end Verif.Tool.GhostMap

namespace Verif.Props

open Verif.Tool.GhostMap

/-- C21, for programs whose reads are not answered by the unknown item and whose updates make new versions.
Take any such program on new maps and any assignment that satisfies the constraints at its end. Any two reads of
the same version of a map with equal keys report the same presence and, when present, the same value. For every
read, any set of keys that reads of that version reported present has at most as many elements as that version's
length. What is missing: reads answered by the unknown item, for which it is false (`C21_unknown_disagrees`,
`C21_unknown_overfull`), and updates put into the newest layer. -/
theorem C21_consistent_partial (fuel : Nat) (ρ : Env) (p : Prog) (st st' : State) (L : List Entry) (h : Fresh ρ st) (hp : p.Plain (fuel + 1) ρ st)
    (hl : p.log (fuel + 1) st = some (st', L)) (hs : sat st'.constraints ρ) :
    (∀ e ∈ L, ∀ e' ∈ L, e.obj = e'.obj → e.ver = e'.ver → e.key.den ρ = e'.key.den ρ →
      e.present.den ρ = e'.present.den ρ ∧ (e.present.den ρ = true → e.value.den ρ = e'.value.den ρ)) ∧
    (∀ e ∈ L, ∀ S : Finset Nat,
      (∀ k ∈ S, ∃ e' ∈ L, e'.obj = e.obj ∧ e'.ver = e.ver ∧ e'.key.den ρ = k ∧ e'.present.den ρ = true) → S.card ≤ e.len.den ρ) := by
  have hst := log_steady fuel ρ p st st' [] L h.steady hp hl hs
  rw [List.nil_append] at hst
  have hag : ∀ e ∈ L, Agreeing ρ e.obj e.ver L := by
    intro e he
    rcases Nat.lt_or_ge e.ver (st'.maps e.obj).version with h' | h'
    · exact hst.past _ _ h'
    · rw [Nat.le_antisymm (hst.ver e he) h']; exact hst.agreeing_now _
  exact ⟨fun e he e' he' ho hv => (hag e he).1 e he e' he' rfl rfl ho.symm hv.symm, fun e he S => (hag e he).2 e he rfl rfl S⟩

/-- C21: two different present keys need a length of at least two. -/
theorem C21_two_keys_partial (fuel : Nat) (ρ : Env) (p : Prog) (st st' : State) (L : List Entry) (h : Fresh ρ st) (hp : p.Plain (fuel + 1) ρ st)
    (hl : p.log (fuel + 1) st = some (st', L)) (hs : sat st'.constraints ρ) (e e' : Entry) (he : e ∈ L) (he' : e' ∈ L) (ho : e.obj = e'.obj)
    (hv : e.ver = e'.ver) (hk : e.key.den ρ ≠ e'.key.den ρ) (h1 : e.present.den ρ = true) (h2 : e'.present.den ρ = true) : 2 ≤ e.len.den ρ := by
  have := (C21_consistent_partial fuel ρ p st st' L h hp hl hs).2 e he {e.key.den ρ, e'.key.den ρ} (by
    intro k hk'
    rcases Finset.mem_insert.1 hk' with rfl | hk'
    · exact ⟨e, he, rfl, rfl, rfl, h1⟩
    · exact ⟨e', he', ho.symm, hv.symm, (Finset.mem_singleton.1 hk').symm, h2⟩)
  rwa [Finset.card_pair hk] at this

/-- C21: a version with as many present keys as its length has no other. -/
theorem C21_full_partial (fuel : Nat) (ρ : Env) (p : Prog) (st st' : State) (L : List Entry) (h : Fresh ρ st) (hp : p.Plain (fuel + 1) ρ st)
    (hl : p.log (fuel + 1) st = some (st', L)) (hs : sat st'.constraints ρ) (e : Entry) (he : e ∈ L) (S : Finset Nat)
    (hS : ∀ k ∈ S, ∃ e' ∈ L, e'.obj = e.obj ∧ e'.ver = e.ver ∧ e'.key.den ρ = k ∧ e'.present.den ρ = true) (hfull : e.len.den ρ = S.card)
    (hk : e.key.den ρ ∉ S) : e.present.den ρ = false := by
  cases hpr : e.present.den ρ with
  | false => rfl
  | true =>
    have := (C21_consistent_partial fuel ρ p st st' L h hp hl hs).2 e he (insert (e.key.den ρ) S) (by
      intro k hk'
      rcases Finset.mem_insert.1 hk' with rfl | hk'
      · exact ⟨e, he, rfl, rfl, rfl, hpr⟩
      · exact hS k hk')
    rw [Finset.card_insert_of_notMem hk] at this
    omega

theorem fresh_start (ρ : Env) (h : ρ.bv 4 < 2 ^ 64) : Fresh ρ start := by
  intro o
  refine ⟨rfl, rfl, ?_, h⟩
  intro inv hi
  simp only [start, List.mem_singleton] at hi
  subst hi
  exact ⟨0, trivial⟩

/-- A program that reads a key and then sets it, and its constraints can be satisfied. -/
theorem plain_sample : ∃ (st' : State) (L : List Entry) (ρ : Env),
    Fresh ρ start ∧ (Prog.get 0 (.var 0) fun _ _ => .set 0 (.var 0) (.const 5) .done).Plain 1 ρ start ∧
    (Prog.get 0 (.var 0) fun _ _ => .set 0 (.var 0) (.const 5) .done).log 1 start = some (st', L) ∧ sat st'.constraints ρ ∧
    ∃ e ∈ L, e.present.den ρ = true ∧ e.len.den ρ = 1 := by
  have hA := start_world9 1 3
  have hx : exactMatch start.constraints (.var 0) [⟨.var 2, .var 3, .var 2⟩] (.lit true) = none :=
    exactMatch_none (ρ := env9 1 3) hA.sat (by simp) (by simp [E.den, env9])
  obtain ⟨st1, hg1, -, -, -, hn1, -, hb1, hl1, hu1, hi1, hbl1, -⟩ := get_miss 0 start 0 none (.var 0) none (.lit true) rfl hx
    (by simp [start, E.within]) (by simp [start, IB.pure, B.within])
  obtain ⟨_, _, ρ1, hg1', hr1⟩ := get_read 0 hA 0 none (key := .var 0) (hint := none) (cond := .lit true) (by simp [start, E.within]) (by simp) trivial
    (hA.maps 0).base (by simp)
  rw [hg1] at hg1'
  obtain ⟨rfl, rfl⟩ := Prod.mk.inj (Option.some.inj hg1')
  have hl1' : (st1.maps 0).layers = [] := by rw [hl1 rfl]; rfl
  have hb1' : (st1.maps 0).base = [⟨.var 0, .var 5, .var 5⟩] := hb1
  have hu1' : (st1.maps 0).unknown = ⟨.var 2, .var 3, .var 2⟩ := hu1
  have hbl1' : (st1.maps 0).baseLength = .var 4 := hbl1
  obtain ⟨st2, ρ2, hs2, hU2⟩ := set_updated 0 hr1.describes 0 (key := .var 0) (value := .const 5) (by rw [hn1]; simp [start, E.within]) trivial
    (by rw [hu1']; show ρ1.bv 0 ≠ ρ1.bv 2; rw [← (hr1.agree 0 (by simp [start])).1, ← (hr1.agree 2 (by simp [start])).1]; simp [env9])
    (by rw [hl1']; rfl) (by rw [contentAt_congr hA hr1.agree (hr1.layers 0)]; exact room9)
  have ha : Agree 5 (env9 1 3) ρ2 := hr1.agree.trans hU2.agree hr1.next
  have h4 : ρ2.bv 4 = 1 := (ha 4 (by omega)).1.symm
  rw [Nat.zero_add] at hg1 hs2
  refine ⟨st2, [⟨0, 0, .var 4, .var 0, .var 5, .var 5⟩], ρ2, fresh_start ρ2 (by omega), ⟨⟨hx, by simp [start, items]⟩, fun r st' hg => ?_⟩, ?_, hU2.describes.sat, ?_⟩
  · rw [hg1] at hg
    obtain ⟨rfl, rfl⟩ := Prod.mk.inj (Option.some.inj hg)
    refine ⟨⟨?_, by rw [hl1', hb1']; simp [items]⟩, by rw [hl1']; rfl, ?_, fun _ _ => trivial⟩
    · rw [hu1']
      refine exactMatch_none hr1.describes.sat (by simp) ?_
      simp only [List.mem_singleton, forall_eq, E.den]
      intro _
      rw [← (hr1.agree 0 (by simp [start])).1, ← (hr1.agree 2 (by simp [start])).1]; simp [env9]
    · rw [hl1']; show (st1.maps 0).baseLength.den ρ2 + 1 < _; rw [hbl1']; show ρ2.bv 4 + 1 < _; omega
  · unfold Prog.log
    rw [hg1]
    simp only
    unfold Prog.log
    rw [hs2]
    rfl
  · refine ⟨_, List.mem_singleton.2 rfl, ?_, h4⟩
    have := hr1.present rfl
    have h5 : (B.var start.next).den ρ1 = true := by rw [this]; rfl
    show (B.var 5).den ρ2 = true
    rw [← B.den_congr hU2.agree _ (show (B.var 5).within st1.next by rw [hn1]; simp [start, B.within])]
    exact h5

/-- The C21 theorems apply to that program. -/
example : ∃ (st' : State) (L : List Entry) (ρ : Env),
    Fresh ρ start ∧ (Prog.get 0 (.var 0) fun _ _ => .set 0 (.var 0) (.const 5) .done).Plain 1 ρ start ∧
    (Prog.get 0 (.var 0) fun _ _ => .set 0 (.var 0) (.const 5) .done).log 1 start = some (st', L) ∧ sat st'.constraints ρ ∧
    ∃ e ∈ L, e.present.den ρ = true ∧ e.len.den ρ = 1 := plain_sample

/-- `start` after finding that not all keys of map 0 differ from 3, with symbol 0 assumed to be 3. -/
theorem pinned : ∃ st1 : State, forall_ 1 start 0 (.rel (fun x y => x != y) .key (.lift (.const 3))) = some (.var 5, st1) ∧
    st1.next = 6 ∧ st1.maps 0 = ⟨[.lift (.lit true), iimplies (.lift (.var 5)) (iimplies .present (.rel (fun x y => x != y) .key (.lift (.const 3))))],
      [], .var 4, ⟨.var 2, .var 3, .var 2⟩, []⟩ ∧
    ∀ ρ, sat (st1.add [.not (.var 5), (E.var 0).eq (.const 3)]).constraints ρ ↔ ρ.bl 5 = false ∧ ρ.bv 0 = 3 ∧ ρ.bl 2 = true ∧ ρ.bv 2 = 3 := by
  obtain ⟨st1, h1, hn1, -, hm1, hc1⟩ := forall_fresh 1 start 0 (pred := .rel (fun x y => x != y) .key (.lift (.const 3))) ⟨trivial, trivial⟩ rfl rfl
    (by simp [start, Item.within, E.within, B.within]) rfl
  refine ⟨st1, h1, hn1, hm1, fun ρ => ?_⟩
  have hsat : sat (st1.add [.not (.var 5), (E.var 0).eq (.const 3)]).constraints ρ ↔ (ρ.bl 5 = false ∧ ρ.bv 0 = 3) ∧ sat st1.constraints ρ := by
    simp only [State.add, sat, List.cons_append, List.nil_append, List.forall_mem_cons, B.den, den_eq, E.den, and_assoc]
    simp
  rw [hsat, hc1 ρ]
  have hs0 : sat start.constraints ρ := by simp [sat, start]
  simp only [hs0, true_and]
  have : start.next = 5 := rfl
  rw [this]
  constructor
  · rintro ⟨⟨h1, h2⟩, h3⟩
    rw [h1] at h3
    simp only [Bool.false_eq_true, false_iff, Classical.not_imp] at h3
    refine ⟨h1, h2, h3.1, ?_⟩
    have := h3.2
    simpa [IB.sem, IE.sem, E.den, start] using this
  · rintro ⟨h1, h2, h3, h4⟩
    refine ⟨⟨h1, h2⟩, ?_⟩
    rw [h1]
    simp only [Bool.false_eq_true, false_iff, Classical.not_imp]
    exact ⟨h3, by simp [IB.sem, IE.sem, E.den, start, h4]⟩

/-- C21 is false in general: equal keys, different values. A program finds that key 3 is in a map, sets a key K, and
reads both a key G known to be 3 and K. The reads are of the same version; when K is 3 the first yields the old value,
because the unknown item answers it, and the second yields the new one. -/
theorem C21_unknown_disagrees : ∃ (st1 st2 st3 st4 : State) (a b : E × B),
    forall_ 1 start 0 (.rel (fun x y => x != y) .key (.lift (.const 3))) = some (.var 5, st1) ∧
    set 1 (st1.add [.not (.var 5), (E.var 0).eq (.const 3)]) 0 (.var 1) (.const 5) = some st2 ∧
    get 1 st2 0 none (.var 0) none (.lit true) = some (a, st3) ∧ get 1 st3 0 none (.var 1) none (.lit true) = some (b, st4) ∧
    (st2.maps 0).version = (st3.maps 0).version ∧
    ∃ ρ, sat st4.constraints ρ ∧ (E.var 0).den ρ = (E.var 1).den ρ ∧ a.2.den ρ = true ∧ b.2.den ρ = true ∧ a.1.den ρ = 9 ∧ b.1.den ρ = 5 := by
  obtain ⟨st1, hf, hn1, hm1, hc1⟩ := pinned
  set stA := st1.add [.not (.var 5), (E.var 0).eq (.const 3)] with hstA
  have hmA : stA.maps 0 = _ := hm1
  have hnA : stA.next = 6 := hn1
  -- an assignment where K is not 3
  set ρ0 : Env := ⟨fun i => if i = 0 ∨ i = 2 then 3 else if i = 1 then 4 else if i = 3 then 9 else if i = 4 then 1 else 0, fun i => i == 2⟩ with hρ0
  set ρ3 : Env := ⟨fun i => if i = 0 ∨ i = 1 ∨ i = 2 then 3 else if i = 4 then 1 else 9, fun i => i != 5⟩ with hρ3
  have hs0 : sat stA.constraints ρ0 := (hc1 ρ0).2 (by simp [hρ0])
  have hs3 : sat stA.constraints ρ3 := (hc1 ρ3).2 (by simp [hρ3])
  have hx1 : exactMatch stA.constraints (.var 1) [⟨.var 2, .var 3, .var 2⟩] (.lit true) = none :=
    exactMatch_none (ρ := ρ0) hs0 (by simp) (by simp [E.den, hρ0])
  have hinvs : ∀ inv ∈ (stA.maps 0).invs, inv.pure stA.next := by
    rw [hmA, hnA]; simp [IB.pure, IE.pure, iimplies, E.within, B.within]
  obtain ⟨stB, hgB, -, hcB, -, hnB, -, hbB, hlB, huB, hiB, hblB, -⟩ := get_miss 0 stA 0 none (.var 1) none (.lit true) (by rw [hmA]; rfl) (by rw [hmA]; exact hx1)
    (by rw [hnA]; simp [E.within]) hinvs
  have hsB := get_miss_sat 0 stA stB 0 none (.var 1) none (.lit true) _ (by rw [hmA]) (by rw [hmA]; rfl) (by rw [hmA]; exact hx1)
    (by rw [hnA]; simp [E.within]) hinvs hgB
  have hs0B := hsB ρ0 hs0 (by simp [hintConstraint]) (by rw [hmA, hnA]; simp [sameAs, implies, B.den, den_eq, E.den, hρ0])
    (by rw [hmA, hnA]; simp [IB.sem, IE.sem, iimplies, B.den, E.den, hρ0])
    (by rw [hmA, hnA]; simp [knownLength, E.le, B.den, E.den, E.add, andAll, hρ0])
  have hs3B := hsB ρ3 hs3 (by simp [hintConstraint]) (by rw [hmA, hnA]; simp [sameAs, implies, B.den, den_eq, E.den, hρ3])
    (by rw [hmA, hnA]; simp [IB.sem, IE.sem, iimplies, B.den, E.den, hρ3])
    (by rw [hmA, hnA]; simp [knownLength, E.le, B.den, E.den, E.add, andAll, hρ3])
  have hp : ∃ p, constantOr stB.constraints (.var stA.next) = some p := by
    obtain ⟨p, hp, -⟩ := constantOr_some hs3B (b := .var stA.next) (n := stA.next + 1) (Nat.lt_succ_self _)
    exact ⟨p, hp⟩
  obtain ⟨p, hp⟩ := hp
  have hset := set_of_get (value := .const 5) hgB hp
  have hlB' : (stB.maps 0).layers = [] := by rw [hlB rfl, hmA]; rfl
  have hbB' : (stB.maps 0).base = [⟨.var 1, .var 6, .var 6⟩] := by rw [hbB, hmA, hnA]; rfl
  have huB' : (stB.maps 0).unknown = ⟨.var 2, .var 3, .var 2⟩ := by rw [huB, hmA]
  generalize hst2 : stB.setMap 0 (withItemLayer (stB.maps 0) ⟨.var 1, .const 5, .lit true⟩ (.ite p (.const 0) (.const 1))) = st2 at hset
  have hm2 : st2.maps 0 = { stB.maps 0 with layers := [⟨[⟨.var 1, .const 5, .lit true⟩], (stB.maps 0).baseLength.add (.ite p (.const 0) (.const 1)), (0, [])⟩] } := by
    rw [← hst2, setMap_same]
    simp [withItemLayer, flattens, hlB', lengthOf]
  have hc2 : st2.constraints = stB.constraints := by rw [← hst2]; rfl
  have hk2 : (known (st2.maps 0).base (st2.maps 0).layers).1 = [⟨.var 1, .const 5, .lit true⟩] := by
    rw [hm2]
    simp [known, hbB', transform]
  have hemp : isEmpty (lengthOf (st2.maps 0) (st2.maps 0).layers) = false := by
    rw [hm2]
    show isEmpty ((stB.maps 0).baseLength.add _) = false
    rw [hblB, hmA]
    simp [isEmpty, E.add, E.symbolic]
  -- the read of G
  have hg3 := get_hit 0 st2 0 none (.var 0) none (.lit true) ⟨.var 2, .var 3, .var 2⟩ hemp (by
    rw [show skip (st2.maps 0) none = 0 from rfl, List.drop_zero, hk2, hm2, hc2]
    show exactMatch _ _ (_ ++ [(stB.maps 0).unknown]) _ = _
    rw [huB']
    have d1 : definitely stB.constraints (.or (.not (.lit true)) ((E.var 0).eq (.var 1))) = false :=
      definitely_false hs0B (by simp [B.den, den_eq, E.den, hρ0])
    have d2 : definitely stB.constraints (.or (.not (.lit true)) ((E.var 0).eq (.var 2))) = true := by
      refine definitely_of fun ρ hs => ?_
      have := (hc1 ρ).1 fun c hc => hs c (hcB c hc)
      simp [B.den, den_eq, E.den, this.2.1, this.2.2.2]
    simp [exactMatch, E.symbolic, d1, d2])
  generalize hst3 : st2.setMap 0 ((st2.maps 0).setLower (skip (st2.maps 0) none) (known (st2.maps 0).base ((st2.maps 0).layers.drop (skip (st2.maps 0) none))).2) = st3 at hg3
  have hm3 : ∃ c, st3.maps 0 = { stB.maps 0 with layers := [⟨[⟨.var 1, .const 5, .lit true⟩], (stB.maps 0).baseLength.add (.ite p (.const 0) (.const 1)), c⟩] } ∧
      CacheOk (stB.maps 0).base [⟨[⟨.var 1, .const 5, .lit true⟩], (stB.maps 0).baseLength.add (.ite p (.const 0) (.const 1)), c⟩] := by
    have hce := known_eq (stB.maps 0).base [⟨[⟨.var 1, .const 5, .lit true⟩], (stB.maps 0).baseLength.add (.ite p (.const 0) (.const 1)), (0, [])⟩] ⟨Nat.zero_le _, rfl, trivial⟩
    rw [← hst3, setMap_same, show skip (st2.maps 0) none = 0 from rfl, hm2]
    exact ⟨_, rfl, hce.2.1⟩
  obtain ⟨c3, hm3, hc3⟩ := hm3
  have hk3 : (known (st3.maps 0).base (st3.maps 0).layers).1 = [⟨.var 1, .const 5, .lit true⟩] := by
    rw [hm3]
    rw [(known_eq (stB.maps 0).base _ hc3).1]
    simp [items, hbB', transform]
  have hg4 := get_hit 0 st3 0 none (.var 1) none (.lit true) ⟨.var 1, .const 5, .lit true⟩ (by
      rw [hm3]
      show isEmpty ((stB.maps 0).baseLength.add _) = false
      rw [hblB, hmA]
      simp [isEmpty, E.add, E.symbolic]) (by
    rw [show skip (st3.maps 0) none = 0 from rfl, List.drop_zero, hk3]
    exact exactMatch_hit (by simp))
  refine ⟨st1, st2, st3, _, _, _, hf, hset, hg3, hg4, ?_, ρ3, ?_, rfl, rfl, rfl, rfl, rfl⟩
  · rw [hm2, hm3]; rfl
  · show sat st3.constraints ρ3
    rw [← hst3]
    show sat st2.constraints ρ3
    rw [hc2]; exact hs3B

/-- C21 is false in general: two different present keys in a map of length 1. A program finds that key 3 is in a map,
and reads both a key G known to be 3 and a key K. The unknown item answers the first read and is not counted by the
second. -/
theorem C21_unknown_overfull : ∃ (st1 st3 st4 : State) (a b : E × B),
    forall_ 1 start 0 (.rel (fun x y => x != y) .key (.lift (.const 3))) = some (.var 5, st1) ∧
    get 1 (st1.add [.not (.var 5), (E.var 0).eq (.const 3)]) 0 none (.var 0) none (.lit true) = some (a, st3) ∧
    get 1 st3 0 none (.var 1) none (.lit true) = some (b, st4) ∧ (st4.maps 0).version = 0 ∧ (st3.maps 0).version = 0 ∧ (st1.maps 0).version = 0 ∧
    ∃ ρ, sat st4.constraints ρ ∧ (E.var 0).den ρ ≠ (E.var 1).den ρ ∧ a.2.den ρ = true ∧ b.2.den ρ = true ∧
      (lengthOf (st4.maps 0) (st4.maps 0).layers).den ρ = 1 := by
  obtain ⟨st1, hf, hn1, hm1, hc1⟩ := pinned
  set stA := st1.add [.not (.var 5), (E.var 0).eq (.const 3)] with hstA
  have hmA : stA.maps 0 = _ := hm1
  have hnA : stA.next = 6 := hn1
  set ρ0 : Env := ⟨fun i => if i = 0 ∨ i = 2 then 3 else if i = 1 then 4 else if i = 3 then 9 else if i = 4 then 1 else 0, fun i => i != 5⟩ with hρ0
  have hs0 : sat stA.constraints ρ0 := (hc1 ρ0).2 (by simp [hρ0])
  have hg3 := get_hit 0 stA 0 none (.var 0) none (.lit true) ⟨.var 2, .var 3, .var 2⟩ (by rw [hmA]; rfl) (by
    rw [hmA]
    have d2 : definitely stA.constraints (.or (.not (.lit true)) ((E.var 0).eq (.var 2))) = true := by
      refine definitely_of fun ρ hs => ?_
      have := (hc1 ρ).1 hs
      simp [B.den, den_eq, E.den, this.2.1, this.2.2.2]
    simp [exactMatch, E.symbolic, known, d2])
  generalize hst3 : stA.setMap 0 ((stA.maps 0).setLower (skip (stA.maps 0) none) (known (stA.maps 0).base ((stA.maps 0).layers.drop (skip (stA.maps 0) none))).2) = st3 at hg3
  have hm3 : st3.maps 0 = stA.maps 0 := by rw [← hst3, setMap_same, hmA]; rfl
  have hc3 : st3.constraints = stA.constraints := by rw [← hst3]; rfl
  have hn3 : st3.next = 6 := by rw [← hst3]; exact hnA
  have hx1 : exactMatch st3.constraints (.var 1) [⟨.var 2, .var 3, .var 2⟩] (.lit true) = none := by
    rw [hc3]; exact exactMatch_none (ρ := ρ0) hs0 (by simp) (by simp [E.den, hρ0])
  have hinvs : ∀ inv ∈ (st3.maps 0).invs, inv.pure st3.next := by
    rw [hm3, hmA, hn3]; simp [IB.pure, IE.pure, iimplies, E.within, B.within]
  obtain ⟨stB, hgB, -, -, -, hnB, -, hbB, hlB, huB, hiB, hblB, -⟩ := get_miss 0 st3 0 none (.var 1) none (.lit true) (by rw [hm3, hmA]; rfl) (by rw [hm3, hmA]; exact hx1)
    (by rw [hn3]; simp [E.within]) hinvs
  have hsB := get_miss_sat 0 st3 stB 0 none (.var 1) none (.lit true) _ (by rw [hm3, hmA]) (by rw [hm3, hmA]; rfl) (by rw [hm3, hmA]; exact hx1)
    (by rw [hn3]; simp [E.within]) hinvs hgB
  have hs0B := hsB ρ0 (by rw [hc3]; exact hs0) (by simp [hintConstraint]) (by rw [hm3, hmA, hn3]; simp [sameAs, implies, B.den, den_eq, E.den, hρ0])
    (by rw [hm3, hmA, hn3]; simp [IB.sem, IE.sem, iimplies, B.den, E.den, hρ0])
    (by rw [hm3, hmA, hn3]; simp [knownLength, E.le, B.den, E.den, E.add, andAll, hρ0])
  have hlB' : (stB.maps 0).layers = [] := by rw [hlB rfl, hm3, hmA]; rfl
  refine ⟨st1, st3, stB, _, _, hf, hg3, hgB, by simp [MapS.version, hlB'], by rw [hm3, hmA]; rfl, by rw [hm1]; rfl, ρ0, hs0B, by simp [E.den, hρ0], rfl, ?_, ?_⟩
  · rw [hn3]; rfl
  · rw [hlB']; show (stB.maps 0).baseLength.den ρ0 = 1; rw [hblB, hm3, hmA]; rfl

end Verif.Props
