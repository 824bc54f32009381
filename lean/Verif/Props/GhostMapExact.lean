/-
Property C75: what the verifier takes for possible of ghost maps is possible of ordinary maps.
-/
import Verif.Props.GhostMapCons
import Mathlib.Data.Set.Card

set_option autoImplicit false

namespace Verif.Tool.GhostMap.Exact
open Verif.Tool.GhostMap

/-- The value of a key as an ordinary map has it. -/
def opt (v : Nat) (p : Bool) : Option Nat := if p then some v else none

theorem applyInvs_all (g : GetFn) (item : Item) (cond : B) (st : State) : ∀ {invs : List IB}, NoReads invs →
    ∃ bs, applyInvs g item cond st invs = some (bs, st) ∧ ∀ ρ, (∀ b ∈ bs, b.den ρ = true) →
      ∀ inv ∈ invs, inv.sem noMaps ρ (item.key.den ρ) (item.value.den ρ) (item.present.den ρ) = true
  | [], _ => ⟨[], rfl, by simp⟩
  | inv :: invs, h => by
    obtain ⟨n, hn⟩ := h inv (by simp)
    obtain ⟨m, hm⟩ := item.exists_within
    obtain ⟨r, h1, -, h3⟩ := evalB_pure g item (.and item.present cond) st (n := n) (m := max m n)
      ⟨E.within_mono (by omega) _ hm.1, E.within_mono (by omega) _ hm.2.1, B.within_mono (by omega) _ hm.2.2⟩ (by omega) inv hn
    obtain ⟨bs, g1, g2⟩ := applyInvs_all g item cond st (invs := invs) fun i hi => h i (by simp [hi])
    refine ⟨r :: bs, by simp [applyInvs, applyInv, h1, g1], fun ρ hb i hi => ?_⟩
    rcases List.mem_cons.1 hi with rfl | hi
    · rw [← h3 ρ]; exact hb r (by simp)
    · exact g2 ρ (fun b hb' => hb b (by simp [hb'])) i hi

/-- What a read learns satisfies the invariants, unless it was known. -/
theorem get_invs (fuel : Nat) {st st' : State} {obj : Nat} {key : E} {r : E × B} (hn : NoReads (st.maps obj).invs)
    (hg : get (fuel + 1) st obj none key none (.lit true) = some (r, st')) (ρ : Env) (hs : sat st'.constraints ρ) (hc : MapC ρ (st.maps obj)) :
    ∀ t ∈ items (st'.maps obj).base (st'.maps obj).layers, (∃ j ∈ items (st.maps obj).base (st.maps obj).layers, j.key.den ρ = t.key.den ρ) ∨
      ∀ inv ∈ (st.maps obj).invs, inv.sem noMaps ρ (t.key.den ρ) (t.value.den ρ) (t.present.den ρ) = true := by
  set m := st.maps obj with hmd
  have hce := known_eq m.base m.layers hc.caches
  unfold get at hg
  simp only [← hmd, show skip m none = 0 from rfl, List.drop_zero] at hg
  split at hg
  · simp only [Option.some.injEq, Prod.mk.injEq] at hg
    obtain ⟨-, rfl⟩ := hg
    exact fun t ht => .inl ⟨t, ht, rfl⟩
  · have hcs : (st.setMap obj (m.setLower 0 (known m.base m.layers).2)).constraints = st.constraints := rfl
    rw [hcs] at hg
    have hsl : SameLayers (m.setLower 0 (known m.base m.layers).2).layers m.layers :=
      SameLayers.setLower (ls := m.layers) (d := 0) (by rw [List.drop_zero]; exact hce.2.2)
    split at hg
    · simp only [Option.some.injEq, Prod.mk.injEq] at hg
      obtain ⟨-, rfl⟩ := hg
      rw [setMap_same]
      intro t ht
      have hit : items (m.setLower 0 (known m.base m.layers).2).base (m.setLower 0 (known m.base m.layers).2).layers = items m.base m.layers := hsl.items
      rw [hit] at ht
      exact .inl ⟨t, ht, rfl⟩
    · unfold getNew at hg
      simp only [setMap_same, show (st.setMap obj (m.setLower 0 (known m.base m.layers).2)).next = st.next from rfl] at hg
      split at hg
      · simp at hg
      · rename_i bs st2 hbs
        obtain ⟨bs', hbs', hall⟩ := applyInvs_all (get fuel) ⟨key, .var st.next, .var st.next⟩ (.lit true)
          ((({ st.setMap obj (m.setLower 0 (known m.base m.layers).2) with next := st.next + 1 } : State).add (hintConstraint (.lit true) (.var st.next) none)).setMap obj
            { m.setLower 0 (known m.base m.layers).2 with base := (m.setLower 0 (known m.base m.layers).2).base ++ [⟨key, .var st.next, .var st.next⟩] })
          (invs := (m.setLower 0 (known m.base m.layers).2).invs) hn
        have hbs2 : some (bs, st2) = some (bs', _) := hbs.symm.trans hbs'
        simp only [Option.some.injEq, Prod.mk.injEq] at hbs2 hg
        obtain ⟨rfl, rfl⟩ := hbs2
        obtain ⟨-, rfl⟩ := hg
        set item : Item := ⟨key, .var st.next, .var st.next⟩ with hitem
        set m1 : MapS := { m.setLower 0 (known m.base m.layers).2 with base := (m.setLower 0 (known m.base m.layers).2).base ++ [item] } with hm1
        have hsl1 : SameLayers m1.layers m.layers := hsl
        have hc1 : CacheOk m1.base m1.layers := by
          show CacheOk (m.base ++ [item]) (m.layers.take 0 ++ (known m.base m.layers).2)
          rw [List.take_zero, List.nil_append]
          exact CacheOk.append _ _ _ hce.2.1
        have hce1 := known_eq m1.base m1.layers hc1
        have hsl2 : SameLayers (known m1.base m1.layers).2 m.layers := hce1.2.2.trans hsl1
        obtain ⟨S1, hS1⟩ : ∃ S1 : State, S1 = ((({ st.setMap obj (m.setLower 0 (known m.base m.layers).2) with next := st.next + 1 } : State).add (hintConstraint (.lit true) (.var st.next) none)).setMap obj m1) := ⟨_, rfl⟩
        rw [← hS1] at hs ⊢
        have hS1m : S1.maps obj = m1 := by rw [hS1, setMap_same]
        have ho2 : (overfullCheck S1 obj 0).2.maps obj = m1.setLower 0 (known m1.base m1.layers).2 := by
          simp only [overfullCheck, setMap_same, hS1m, List.drop_zero]
        have hm3 : (m1.setLower 0 (known m1.base m1.layers).2).layers = (known m1.base m1.layers).2 := by
          simp [MapS.setLower]
        have hit : items (m1.setLower 0 (known m1.base m1.layers).2).base (m1.setLower 0 (known m1.base m1.layers).2).layers = items (m.base ++ [item]) m.layers := by
          rw [hm3]; exact hsl2.items
        intro t ht
        change t ∈ items ((overfullCheck S1 obj 0).2.maps obj).base ((overfullCheck S1 obj 0).2.maps obj).layers at ht
        rw [ho2, hit] at ht
        by_cases hkn : ∃ j ∈ items m.base m.layers, j.key.den ρ = t.key.den ρ
        · exact .inl hkn
        refine .inr fun inv hinv => ?_
        rcases items_add ρ m.base item m.layers t ht with h | ⟨hk, ⟨h1, h2⟩ | ⟨j, hj, hkj, -⟩⟩
        · exact absurd ⟨t, h, rfl⟩ hkn
        · rw [hk, h1, h2]
          refine hall ρ (fun b hb => ?_) inv hinv
          have := hs (implies (isUnknown key (known m.base m.layers).1) b) (by
            simp only [State.add, List.mem_append, List.mem_map]
            exact .inl (.inl (.inr ⟨b, hb, rfl⟩)))
          rw [den_implies] at this
          refine this ?_
          unfold isUnknown
          rw [den_andAll, List.all_map, List.all_eq_true, hce.1]
          intro j hj
          have hne : key.den ρ ≠ j.key.den ρ := fun e => hkn ⟨j, hj, by rw [hk, ← e]⟩
          simpa [B.den, den_eq] using hne
        · exact absurd ⟨j, hj, by rw [hkj, hk]⟩ hkn

/-- What is known of the contents of a map: the keys `D` with their values. They fit the length; those that are not known
yet, but will be, satisfy the invariants. -/
structure Info (ρ : Env) (m : MapS) (D : Finset Nat) (w : Nat → Option Nat) : Prop where
  known : ∀ i ∈ items m.base m.layers, i.key.den ρ ∈ D ∧ w (i.key.den ρ) = opt (i.value.den ρ) (i.present.den ρ)
  count : (D.filter fun k => (w k).isSome = true).card ≤ (lengthOf m m.layers).den ρ
  invs : ∀ k ∈ D, (∃ i ∈ items m.base m.layers, i.key.den ρ = k) ∨
    ∃ v p, w k = opt v p ∧ ∀ inv ∈ m.invs, inv.sem noMaps ρ k v p = true

/-- An ordinary map of `n` keys with the known values. -/
structure Fits (M : Nat → Option Nat) (D : Finset Nat) (w : Nat → Option Nat) (n : Nat) : Prop where
  eq : ∀ k ∈ D, M k = w k
  finite : {j | (M j).isSome = true}.Finite
  size : {j | (M j).isSome = true}.ncard = n

theorem put_size (M : Nat → Option Nat) (k : Nat) (x : Option Nat) (hf : {j | (M j).isSome = true}.Finite) :
    {j | ((fun j => if j = k then x else M j) j).isSome = true}.Finite ∧
    {j | ((fun j => if j = k then x else M j) j).isSome = true}.ncard + (if (M k).isSome then 1 else 0) =
      {j | (M j).isSome = true}.ncard + (if x.isSome then 1 else 0) := by
  set S := {j | (M j).isSome = true} with hS
  set T := {j | ((fun j => if j = k then x else M j) j).isSome = true} with hT
  have h1 : T \ {k} = S \ {k} := by
    ext j
    simp only [hS, hT, Set.mem_sdiff, Set.mem_ofPred_eq, Set.mem_singleton_iff]
    by_cases hj : j = k <;> simp [hj]
  have hTf : T.Finite := by
    refine Set.Finite.subset (hf.union (Set.finite_singleton k)) fun j hj => ?_
    by_cases hjk : j = k
    · exact .inr hjk
    · have : j ∈ T \ {k} := ⟨hj, hjk⟩
      rw [h1] at this
      exact .inl this.1
  refine ⟨hTf, ?_⟩
  have e1 : ∀ U : Set Nat, U.Finite → ∀ c : Bool, (k ∈ U ↔ c = true) → U.ncard = (U \ {k}).ncard + (if c then 1 else 0) := by
    intro U hU c hc
    cases c with
    | true => simpa using (Set.ncard_sdiff_singleton_add_one (hc.2 rfl) hU).symm
    | false => rw [Set.sdiff_singleton_eq_self (fun h => by simpa using hc.1 h)]; simp
  rw [e1 S hf (M k).isSome Iff.rfl, e1 T hTf x.isSome (by simp [hT]), h1]
  omega

theorem opt_isSome (v : Nat) (p : Bool) : (opt v p).isSome = p := by cases p <;> rfl

/-- What is known after an update, carried back before it. -/
theorem push_info {ρ : Env} {m : MapS} {key value : E} {b : Bool} {len : E} {v : Nat} {p : Bool} (hc : MapC ρ m) (ha : Answered ρ m (key.den ρ) v p)
    (hl : len.den ρ + (if p then 1 else 0) = (lengthOf m m.layers).den ρ + (if b then 1 else 0)) {D2 : Finset Nat} {w2 : Nat → Option Nat}
    (h2 : Info ρ { m with layers := ⟨[⟨key, value, .lit b⟩], len, (0, [])⟩ :: m.layers } D2 w2) :
    ∃ D w, Info ρ m D w ∧ ∀ M, Fits M D w ((lengthOf m m.layers).den ρ) →
      Fits (fun j => if j = key.den ρ then opt (value.den ρ) b else M j) D2 w2 (len.den ρ) := by
  have hz : (lengthOf m m.layers).den ρ = 0 → ∀ i ∈ items m.base m.layers, i.present.den ρ = false := by
    intro h0 i hi
    cases hp : i.present.den ρ with
    | false => rfl
    | true =>
      have := hc.atMost {i.key.den ρ} fun k hk => ⟨i, hi, (Finset.mem_singleton.1 hk).symm, hp⟩
      rw [h0] at this; simp at this
  obtain ⟨k, hk⟩ : ∃ k, k = key.den ρ := ⟨_, rfl⟩
  rw [← hk] at ha
  have F1 := h2.known ⟨key, value, .lit b⟩ (by simp [items])
  simp only [B.den, ← hk] at F1
  have F2 : ∀ j ∈ items m.base m.layers, j.key.den ρ ≠ k → j.key.den ρ ∈ D2 ∧ w2 (j.key.den ρ) = opt (j.value.den ρ) (j.present.den ρ) := by
    intro j hj hne
    have := h2.known ⟨j.key, iteE ([⟨key, value, .lit b⟩].map fun ki : Item => (j.key.eq ki.key, ki.value)) j.value,
      iteB ([⟨key, value, .lit b⟩].map fun ki : Item => (j.key.eq ki.key, ki.present)) j.present⟩ (by
        simp only [items, transform, List.mem_append, List.mem_map, List.mem_filter]
        refine .inr ⟨j, ⟨hj, ?_⟩, rfl⟩
        simp only [List.all_cons, List.all_nil, Bool.and_true, Bool.not_eq_true']
        cases he : j.key.same key with
        | false => rfl
        | true => exact absurd ((E.same_sound he ρ).trans hk.symm) hne)
    simpa [iteE, iteB, E.den, B.den, den_eq, ← hk, hne] using this
  have F3 : ∀ t ∈ items m.base (⟨[⟨key, value, .lit b⟩], len, (0, [])⟩ :: m.layers), t.key.den ρ ≠ k → ∃ j ∈ items m.base m.layers, j.key.den ρ = t.key.den ρ := by
    intro t ht hne
    rcases List.mem_append.1 ht with ht | ht
    · rw [List.mem_singleton.1 ht] at hne; exact absurd hk.symm hne
    · obtain ⟨j, hj, e, -⟩ := mem_transform ht
      exact ⟨j, hj, by rw [e]⟩
  have hcount : ((D2.erase k).filter fun j => (w2 j).isSome = true).card + (if b then 1 else 0) ≤ len.den ρ := by
    have h := h2.count
    change _ ≤ len.den ρ at h
    refine le_trans (le_of_eq ?_) h
    rw [show (D2.erase k).filter (fun j => (w2 j).isSome = true) = (D2.filter fun j => (w2 j).isSome = true).erase k from by
      ext j; simp only [Finset.mem_filter, Finset.mem_erase]; tauto]
    cases b with
    | true => simpa using Finset.card_erase_add_one (s := D2.filter fun j => (w2 j).isSome = true) (a := k) (by simp [F1, opt])
    | false => rw [Finset.erase_eq_of_notMem (by simp [F1, opt])]; simp
  by_cases hA : ∃ i ∈ items m.base m.layers, i.key.den ρ = k
  · obtain ⟨i, hi, hik⟩ := hA
    have hip : i.present.den ρ = p := by
      rcases ha with ⟨i', hi', e1, -, e3⟩ | ⟨e1, e2⟩
      · rw [← e3]; exact (hc.consistent i hi i' hi' (hik.trans e1.symm)).2
      · rw [e1]; exact hz e2 i hi
    refine ⟨D2, fun j => if j = k then opt (i.value.den ρ) (i.present.den ρ) else w2 j, ⟨?_, ?_, ?_⟩, fun M hM => ?_⟩
    · intro j hj
      by_cases hjk : j.key.den ρ = k
      · have := hc.consistent j hj i hi (hjk.trans hik.symm)
        simp only [hjk, if_true]
        exact ⟨F1.1, by rw [this.1, this.2]⟩
      · simp only [hjk, if_false]; exact F2 j hj hjk
    · have : (D2.filter fun j => ((fun j => if j = k then opt (i.value.den ρ) (i.present.den ρ) else w2 j) j).isSome = true).card =
          ((D2.erase k).filter fun j => (w2 j).isSome = true).card + (if p then 1 else 0) := by
        have e : (D2.erase k).filter (fun j => (w2 j).isSome = true) =
            (D2.filter fun j => ((fun j => if j = k then opt (i.value.den ρ) (i.present.den ρ) else w2 j) j).isSome = true).erase k := by
          ext j
          simp only [Finset.mem_filter, Finset.mem_erase]
          by_cases hjk : j = k <;> simp [hjk]
        rw [e]
        cases hp : p with
        | true =>
          refine (Finset.card_erase_add_one (s := D2.filter _) (a := k) ?_).symm
          simp [F1, hip, hp, opt]
        | false => rw [Finset.erase_eq_of_notMem (by simp [hip, hp, opt])]; simp
      rw [this]
      omega
    · intro j hj
      by_cases hjk : j = k
      · exact .inl ⟨i, hi, by rw [hjk]; exact hik⟩
      · rcases h2.invs j hj with ⟨t, ht, e⟩ | ⟨v, p, e, h⟩
        · obtain ⟨x, hx, e'⟩ := F3 t ht (by rw [e]; exact hjk)
          exact .inl ⟨x, hx, e'.trans e⟩
        · exact .inr ⟨v, p, by simp only [hjk, if_false]; exact e, h⟩
    · have hMk : M k = opt (i.value.den ρ) p := by
        have := hM.eq k F1.1
        simpa [hip] using this
      have hs := put_size M k (opt (value.den ρ) b) hM.finite
      rw [← hk]
      refine ⟨fun j hj => ?_, hs.1, ?_⟩
      · by_cases hjk : j = k
        · simp [hjk, F1.2]
        · simpa [hjk] using hM.eq j hj
      · have h2 := hs.2
        rw [hM.size, hMk, opt_isSome, opt_isSome] at h2
        clear hs
        dsimp only at h2 ⊢
        omega
  · have hp : p = false ∧ (lengthOf m m.layers).den ρ = 0 := by
      rcases ha with ⟨i, hi, e, -⟩ | h
      · exact absurd ⟨i, hi, e⟩ hA
      · exact h
    obtain ⟨rfl, h0⟩ := hp
    refine ⟨D2.erase k, w2, ⟨?_, ?_, ?_⟩, fun M hM => ?_⟩
    · intro j hj
      have hne : j.key.den ρ ≠ k := fun e => hA ⟨j, hj, e⟩
      exact ⟨Finset.mem_erase.2 ⟨hne, (F2 j hj hne).1⟩, (F2 j hj hne).2⟩
    · simp only [Bool.false_eq_true, if_false] at hl
      omega
    · intro j hj
      rw [Finset.mem_erase] at hj
      rcases h2.invs j hj.2 with ⟨t, ht, e⟩ | h
      · obtain ⟨x, hx, e'⟩ := F3 t ht (by rw [e]; exact hj.1)
        exact .inl ⟨x, hx, e'.trans e⟩
      · exact .inr h
    · have hMk : M k = none := by
        have := hM.size
        rw [h0, Set.ncard_eq_zero hM.finite] at this
        have hn : k ∉ {j | (M j).isSome = true} := by rw [this]; simp
        simpa using hn
      have hs := put_size M k (opt (value.den ρ) b) hM.finite
      rw [← hk]
      refine ⟨fun j hj => ?_, hs.1, ?_⟩
      · by_cases hjk : j = k
        · simp [hjk, F1.2]
        · simpa [hjk] using hM.eq j (Finset.mem_erase.2 ⟨hjk, hj⟩)
      · have h2 := hs.2
        rw [hM.size, hMk, opt_isSome] at h2
        simp only [Bool.false_eq_true, if_false, Option.isSome_none] at hl h2
        omega

theorem run_log (fuel : Nat) : ∀ (p : Prog) (st st' : State), p.run fuel st = some st' → ∃ L, p.log fuel st = some (st', L) := by
  intro p
  induction p with
  | done => intro st st' h; exact ⟨[], by simp only [Prog.run, Option.some.injEq] at h; rw [h]; rfl⟩
  | get obj key k ih =>
    intro st st' h
    unfold Prog.run at h
    unfold Prog.log
    split at h
    · simp at h
    · rename_i hg
      obtain ⟨L, hL⟩ := ih _ _ _ _ h
      exact ⟨_, by simp only [hg, hL, Option.map_some]; rfl⟩
  | length obj k ih => intro st st' h; exact ih _ st st' h
  | set obj key value k ih =>
    intro st st' h
    unfold Prog.run at h
    unfold Prog.log
    split at h
    · simp at h
    · rename_i hg
      rw [hg]; exact ih _ _ h
  | remove obj key k ih =>
    intro st st' h
    unfold Prog.run at h
    unfold Prog.log
    split at h
    · simp at h
    · rename_i hg
      rw [hg]; exact ih _ _ h
  | assume c k ih => intro st st' h; exact ih _ st' h

/-- What is known of all maps, and that ordinary maps with these contents run the program the same way. -/
def Witness (fuel : Nat) (ρ : Env) (st : State) (p : Prog) : Prop :=
  ∃ (D : Nat → Finset Nat) (w : Nat → Nat → Option Nat), (∀ o, Info ρ (st.maps o) (D o) (w o)) ∧
    ∀ M : Maps, (∀ o, Fits (M o) (D o) (w o) ((lengthOf (st.maps o) (st.maps o).layers).den ρ)) → p.Faithful fuel ρ M st

/-- Carrying a witness back over a read. -/
theorem read_info (fuel : Nat) {ρ : Env} {st st1 : State} {obj : Nat} {key : E} {r : E × B} (hm0 : ∀ o, MapC ρ (st.maps o))
    (hg : get (fuel + 1) st obj none key none (.lit true) = some (r, st1)) (hs : sat st1.constraints ρ) (hp : PlainRead st obj key)
    {D : Nat → Finset Nat} {w : Nat → Nat → Option Nat} (hI : ∀ o, Info ρ (st1.maps o) (D o) (w o)) :
    (∀ o, Info ρ (st.maps o) (D o) (w o)) ∧
    (∀ o, lengthOf (st1.maps o) (st1.maps o).layers = lengthOf (st.maps o) (st.maps o).layers) ∧
    ∀ M : Nat → Option Nat, Fits M (D obj) (w obj) ((lengthOf (st.maps obj) (st.maps obj).layers).den ρ) → opt (r.1.den ρ) (r.2.den ρ) = M (key.den ρ) := by
  obtain ⟨h1, h2, h3, h4⟩ := get_cons fuel (hm0 obj).invs hg
  obtain ⟨hm, hsl, hbl, ⟨more, hmore⟩, ha⟩ := h4 ρ hs (hm0 obj) hp.1 hp.2
  have hlen : lengthOf (st1.maps obj) (st1.maps obj).layers = lengthOf (st.maps obj) (st.maps obj).layers := hsl.lengthOf hbl
  refine ⟨fun o => ?_, fun o => ?_, fun M hM => ?_⟩
  · by_cases ho : o = obj
    · subst ho
      refine ⟨fun i hi => (hI o).known i (by rw [hmore]; simp [hi]), by rw [← hlen]; exact (hI o).count, fun k hk => ?_⟩
      rcases (hI o).invs k hk with ⟨t, ht, e⟩ | ⟨v, p, e, h⟩
      · rcases get_invs fuel (hm0 o).invs hg ρ hs (hm0 o) t ht with ⟨j, hj, e'⟩ | h
        · exact .inl ⟨j, hj, e'.trans e⟩
        · refine .inr ⟨t.value.den ρ, t.present.den ρ, ?_, by rw [← e]; exact h⟩
          rw [← e]; exact ((hI o).known t ht).2
      · exact .inr ⟨v, p, e, by rw [← h3]; exact h⟩
    · rw [← h2 o ho]; exact hI o
  · by_cases ho : o = obj
    · subst ho; exact hlen
    · rw [h2 o ho]
  · rcases ha with ⟨i, hi, e1, e2, e3⟩ | ⟨e1, e2⟩
    · have := (hI obj).known i hi
      rw [← e1, hM.eq _ this.1, this.2, e2, e3]
    · rw [e1]
      have := hM.size
      rw [← hlen, e2, Set.ncard_eq_zero hM.finite] at this
      have hn : key.den ρ ∉ {j | (M j).isSome = true} := by rw [this]; simp
      have : M (key.den ρ) = none := by simpa using hn
      rw [this]; rfl

theorem witness (fuel : Nat) (ρ : Env) : ∀ (p : Prog) (st st' : State), (∀ o, MapC ρ (st.maps o)) → p.Plain (fuel + 1) ρ st →
    p.run (fuel + 1) st = some st' → sat st'.constraints ρ → Witness (fuel + 1) ρ st p := by
  classical
  intro p
  induction p with
  | done =>
    intro st st' hm _ _ _
    refine ⟨fun o => ((items (st.maps o).base (st.maps o).layers).map fun i => i.key.den ρ).toFinset,
      fun o k => match (items (st.maps o).base (st.maps o).layers).find? fun i => i.key.den ρ == k with
        | some i => opt (i.value.den ρ) (i.present.den ρ)
        | none => none, fun o => ⟨fun i hi => ⟨?_, ?_⟩, ?_, ?_⟩, fun M _ => trivial⟩
    · simp only [List.mem_toFinset, List.mem_map]; exact ⟨i, hi, rfl⟩
    · dsimp only
      cases hf : (items (st.maps o).base (st.maps o).layers).find? fun j => j.key.den ρ == i.key.den ρ with
      | none => rw [List.find?_eq_none] at hf; exact absurd (by simp) (hf i hi)
      | some j =>
        have e : j.key.den ρ = i.key.den ρ := by have := List.find?_some hf; simpa using this
        have := (hm o).consistent j (List.mem_of_find?_eq_some hf) i hi e
        simp only [this.1, this.2]
    · refine (hm o).atMost _ fun k hk => ?_
      simp only [Finset.mem_filter] at hk
      cases hf : (items (st.maps o).base (st.maps o).layers).find? fun i => i.key.den ρ == k with
      | none => rw [hf] at hk; simp at hk
      | some j =>
        rw [hf] at hk
        refine ⟨j, List.mem_of_find?_eq_some hf, by have := List.find?_some hf; simpa using this, ?_⟩
        simpa [opt_isSome] using hk.2
    · intro k hk
      simp only [List.mem_toFinset, List.mem_map] at hk
      exact .inl hk
  | get obj key k ih =>
    intro st st' hm hp hr hs
    unfold Prog.run at hr
    split at hr
    · simp at hr
    · rename_i r st1 hg
      obtain ⟨h1, h2, h3, h4⟩ := get_cons fuel (hm obj).invs hg
      obtain ⟨L, hL⟩ := run_log _ _ _ _ hr
      have hn1 : ∀ o, NoReads (st1.maps o).invs := by
        intro o
        by_cases ho : o = obj
        · subst ho; rw [h3]; exact (hm o).invs
        · rw [h2 o ho]; exact (hm o).invs
      have hs1 : sat st1.constraints ρ := fun c hc => hs c (log_mono fuel _ st1 st' L hn1 hL c hc)
      have hm1 : ∀ o, MapC ρ (st1.maps o) := by
        intro o
        by_cases ho : o = obj
        · subst ho; exact (h4 ρ hs1 (hm o) hp.1.1 hp.1.2).1
        · rw [h2 o ho]; exact hm o
      obtain ⟨D, w, hI, hF⟩ := ih r.1 r.2 st1 st' hm1 (hp.2 r st1 hg) hr hs
      obtain ⟨a, b, c⟩ := read_info fuel hm hg hs1 hp.1 hI
      refine ⟨D, w, a, fun M hM => ?_⟩
      unfold Prog.Faithful
      simp only [hg]
      exact ⟨c (M obj) (hM obj), hF M fun o => by rw [b]; exact hM o⟩
  | length obj k ih =>
    intro st st' hm hp hr hs
    obtain ⟨D, w, hI, hF⟩ := ih _ st st' hm hp hr hs
    exact ⟨D, w, hI, fun M hM => ⟨(hM obj).size.symm, hF M hM⟩⟩
  | set obj key value k ih =>
    intro st st2 hm hp hr hs
    unfold Prog.run at hr
    split at hr
    · simp at hr
    · rename_i st1 hg
      obtain ⟨h1, h2, h3, h4⟩ := set_cons fuel (hm obj).invs hg
      obtain ⟨L, hL⟩ := run_log _ _ _ _ hr
      have hn1 : ∀ o, NoReads (st1.maps o).invs := by
        intro o
        by_cases ho : o = obj
        · subst ho; rw [h3]; exact (hm o).invs
        · rw [h2 o ho]; exact (hm o).invs
      have hs1 : sat st1.constraints ρ := fun c hc => hs c (log_mono fuel _ st1 st2 L hn1 hL c hc)
      have hm1 : ∀ o, MapC ρ (st1.maps o) := by
        intro o
        by_cases ho : o = obj
        · subst ho; exact (h4 ρ hs1 (hm o) hp.1 hp.2.1 hp.2.2.1).1
        · rw [h2 o ho]; exact hm o
      obtain ⟨D, w, hI, hF⟩ := ih st1 st2 hm1 (hp.2.2.2 st1 hg) hr hs
      have hg' := hg
      unfold Verif.Tool.GhostMap.set at hg'
      split at hg'
      · simp at hg'
      · rename_i r sta hga
        split at hg'
        · simp at hg'
        · rename_i q hq
          obtain rfl : _ = st1 := by simpa using hg'
          have hsa : sat sta.constraints ρ := hs1
          obtain ⟨a1, a2, a3, a4⟩ := get_cons fuel (hm obj).invs hga
          obtain ⟨hma, hsl, hbl, -, ha⟩ := a4 ρ hsa (hm obj) hp.1.1 hp.1.2
          have hle : lengthOf (sta.maps obj) (sta.maps obj).layers = lengthOf (st.maps obj) (st.maps obj).layers := hsl.lengthOf hbl
          have hpd : q.den ρ = r.2.den ρ := constantOr_eq hsa hq
          have hlt := hp.2.2.1
          set len : E := (lengthOf (sta.maps obj) (sta.maps obj).layers).add (.ite q (.const 0) (.const 1)) with hlen
          have hden : len.den ρ = (lengthOf (st.maps obj) (st.maps obj).layers).den ρ + (if r.2.den ρ then 0 else 1) := by
            rw [hlen, hle]
            simp only [E.add, E.den, hpd]
            refine Nat.mod_eq_of_lt ?_
            split <;> omega
          have hw : withItemLayer (sta.maps obj) ⟨key, value, .lit true⟩ (.ite q (.const 0) (.const 1)) =
              { sta.maps obj with layers := ⟨[⟨key, value, .lit true⟩], len, (0, [])⟩ :: (sta.maps obj).layers } := by
            unfold withItemLayer
            simp only [flattens_same hsl, hp.2.1, Bool.false_eq_true, if_false]
            rfl
          have hIo := hI obj
          rw [setMap_same, hw] at hIo
          obtain ⟨D1, w1, i1, i2⟩ := push_info hma ha (by rw [hden, hle]; cases r.2.den ρ <;> simp) hIo
          -- the witness for the state after the read
          obtain ⟨b1, b2, -⟩ := read_info fuel hm hga hsa hp.1 (D := fun o => if o = obj then D1 else D o) (w := fun o => if o = obj then w1 else w o) (by
            intro o
            by_cases ho : o = obj
            · subst ho; simpa using i1
            · have := hI o
              rw [setMap_other _ ho] at this
              simpa [ho] using this)
          refine ⟨_, _, b1, fun M hM => ?_⟩
          unfold Prog.Faithful
          simp only [hg]
          refine hF _ fun o => ?_
          by_cases ho : o = obj
          · subst ho
            rw [setMap_same, hw]
            have := i2 (M o) (by have := hM o; simp only [if_true] at this; rw [hle]; exact this)
            have e : (M.put o (key.den ρ) (some (value.den ρ))) o = fun j => if j = key.den ρ then opt (value.den ρ) true else M o j := by
              funext j; simp [Maps.put, opt]
            rw [e]
            exact this
          · rw [setMap_other _ ho, b2]
            have := hM o
            simp only [ho, if_false] at this
            have e : (M.put obj (key.den ρ) (some (value.den ρ))) o = M o := by
              funext j; simp [Maps.put, ho]
            rw [e]; exact this
  | remove obj key k ih =>
    intro st st2 hm hp hr hs
    unfold Prog.run at hr
    split at hr
    · simp at hr
    · rename_i st1 hg
      obtain ⟨h1, h2, h3, h4⟩ := remove_cons fuel (hm obj).invs hg
      obtain ⟨L, hL⟩ := run_log _ _ _ _ hr
      have hn1 : ∀ o, NoReads (st1.maps o).invs := by
        intro o
        by_cases ho : o = obj
        · subst ho; rw [h3]; exact (hm o).invs
        · rw [h2 o ho]; exact (hm o).invs
      have hs1 : sat st1.constraints ρ := fun c hc => hs c (log_mono fuel _ st1 st2 L hn1 hL c hc)
      have hm1 : ∀ o, MapC ρ (st1.maps o) := by
        intro o
        by_cases ho : o = obj
        · subst ho; exact (h4 ρ hs1 (hm o) hp.1 hp.2.1).1
        · rw [h2 o ho]; exact hm o
      obtain ⟨D, w, hI, hF⟩ := ih st1 st2 hm1 (hp.2.2 st1 hg) hr hs
      have hg' := hg
      unfold Verif.Tool.GhostMap.remove at hg'
      split at hg'
      · simp at hg'
      · rename_i r sta hga
        obtain rfl := Option.some.inj hg'
        have hsa : sat sta.constraints ρ := hs1
        obtain ⟨a1, a2, a3, a4⟩ := get_cons fuel (hm obj).invs hga
        obtain ⟨hma, hsl, hbl, -, ha⟩ := a4 ρ hsa (hm obj) hp.1.1 hp.1.2
        have hle : lengthOf (sta.maps obj) (sta.maps obj).layers = lengthOf (st.maps obj) (st.maps obj).layers := hsl.lengthOf hbl
        set len : E := (lengthOf (sta.maps obj) (sta.maps obj).layers).add (.ite r.2 (.const (2 ^ 64 - 1)) (.const 0)) with hlen
        have hpos : r.2.den ρ = true → 1 ≤ (lengthOf (st.maps obj) (st.maps obj).layers).den ρ := by
          intro hr
          rcases ha with ⟨i, hi, e1, -, e2⟩ | ⟨e, -⟩
          · have := hma.atMost {key.den ρ} (by
              intro k hk
              rw [Finset.mem_singleton.1 hk]
              exact ⟨i, hi, e1, e2.trans hr⟩)
            rw [hle] at this
            simpa using this
          · rw [hr] at e; simp at e
        have hden : len.den ρ + (if r.2.den ρ then 1 else 0) = (lengthOf (st.maps obj) (st.maps obj).layers).den ρ := by
          rw [hlen, hle]
          have hlt := (hm obj).length
          simp only [E.add, E.den]
          cases hr : r.2.den ρ with
          | false => simpa using hlt
          | true => have := hpos hr; simp only [if_true]; omega
        have hw : withItemLayer (({ sta with next := sta.next + 1 } : State).maps obj) ⟨key, .var sta.next, .lit false⟩ (.ite r.2 (.const (2 ^ 64 - 1)) (.const 0)) =
            { sta.maps obj with layers := ⟨[⟨key, .var sta.next, .lit false⟩], len, (0, [])⟩ :: (sta.maps obj).layers } := by
          unfold withItemLayer
          simp only [flattens_same hsl, hp.2.1, Bool.false_eq_true, if_false]
          rfl
        have hIo := hI obj
        rw [setMap_same, hw] at hIo
        obtain ⟨D1, w1, i1, i2⟩ := push_info hma ha (by rw [hle, ← hden]; simp) hIo
        obtain ⟨b1, b2, -⟩ := read_info fuel hm hga hsa hp.1 (D := fun o => if o = obj then D1 else D o) (w := fun o => if o = obj then w1 else w o) (by
          intro o
          by_cases ho : o = obj
          · subst ho; simpa using i1
          · have := hI o
            rw [setMap_other _ ho] at this
            simpa [ho] using this)
        refine ⟨_, _, b1, fun M hM => ?_⟩
        unfold Prog.Faithful
        simp only [hg]
        refine hF _ fun o => ?_
        by_cases ho : o = obj
        · subst ho
          rw [setMap_same, hw]
          have := i2 (M o) (by have := hM o; simp only [if_true] at this; rw [hle]; exact this)
          have e : (M.put o (key.den ρ) none) o = fun j => if j = key.den ρ then opt ((E.var sta.next).den ρ) false else M o j := by
            funext j; simp [Maps.put, opt]
          rw [e]
          exact this
        · rw [setMap_other _ ho]
          show Fits _ _ _ ((lengthOf (sta.maps o) (sta.maps o).layers).den ρ)
          rw [b2]
          have := hM o
          simp only [ho, if_false] at this
          have e : (M.put obj (key.den ρ) none) o = M o := by
            funext j; simp [Maps.put, ho]
          rw [e]; exact this
  | assume a k ih =>
    intro st st' hm hp hr hs
    obtain ⟨D, w, hI, hF⟩ := ih (st.add [a]) st' hm hp hr hs
    obtain ⟨L, hL⟩ := run_log _ _ _ _ hr
    refine ⟨D, w, hI, fun M hM => ⟨?_, hF M hM⟩⟩
    exact hs a (log_mono fuel _ (st.add [a]) st' L (fun o => (hm o).invs) hL a (by simp [State.add]))

/-- The predicate of `forall` on an item: if present, it holds. -/
def Holds (ρ : Env) (pred : IB) (i : Item) : Prop :=
  i.present.den ρ = true → pred.sem noMaps ρ (i.key.den ρ) (i.value.den ρ) true = true

theorem applyInv_sem (g : GetFn) (st : State) (inv : IB) (item : Item) (cond : B) (h : ∃ n, inv.pure n) :
    ∃ b, applyInv g st inv item cond = some (b, st) ∧ ∀ ρ, b.den ρ = inv.sem noMaps ρ (item.key.den ρ) (item.value.den ρ) (item.present.den ρ) := by
  obtain ⟨n, hn⟩ := h
  obtain ⟨m, hm⟩ := item.exists_within
  obtain ⟨r, h1, -, h3⟩ := evalB_pure g item (.and item.present cond) st (n := n) (m := max m n)
    ⟨E.within_mono (by omega) _ hm.1, E.within_mono (by omega) _ hm.2.1, B.within_mono (by omega) _ hm.2.2⟩ (by omega) inv hn
  exact ⟨r, h1, h3⟩

theorem applyAll_sem (fuel : Nat) (st : State) {pred : IB} (hp : ∃ n, pred.pure n) : ∀ l : List Item,
    ∃ bs, applyAll fuel pred st l = some (bs, st) ∧
      ∀ ρ, ((∀ b ∈ bs, b.den ρ = true) ↔ ∀ i ∈ l, pred.sem noMaps ρ (i.key.den ρ) (i.value.den ρ) (i.present.den ρ) = true)
  | [] => ⟨[], rfl, by simp⟩
  | i :: l => by
    obtain ⟨r, h1, h3⟩ := applyInv_sem (get fuel) st pred i (.lit true) hp
    obtain ⟨bs, g1, g3⟩ := applyAll_sem fuel st hp l
    refine ⟨r :: bs, by simp [applyAll, h1, g1], fun ρ => ?_⟩
    simp only [List.forall_mem_cons, g3 ρ, h3 ρ]

theorem sem_present (pred : IB) (ρ : Env) (i : Item) :
    (iimplies .present pred).sem noMaps ρ (i.key.den ρ) (i.value.den ρ) (i.present.den ρ) = true ↔ Holds ρ pred i := by
  unfold Holds
  cases hp : i.present.den ρ <;> simp [iimplies, IB.sem]

/-- What `forall` does to a state. -/
theorem forall_info (fuel : Nat) {st st' : State} {obj : Nat} {pred : IB} {r : B} (hp : ∃ n, pred.pure n)
    (hc : CacheOk (st.maps obj).base (st.maps obj).layers) (he : isEmpty (lengthOf (st.maps obj) (st.maps obj).layers) = false)
    (hg : forall_ fuel st obj pred = some (r, st')) :
    (∀ c ∈ st.constraints, c ∈ st'.constraints) ∧ (∀ o, o ≠ obj → st'.maps o = st.maps o) ∧
    (st'.maps obj).base = (st.maps obj).base ∧ SameLayers (st'.maps obj).layers (st.maps obj).layers ∧
    (st'.maps obj).baseLength = (st.maps obj).baseLength ∧ (st'.maps obj).unknown = (st.maps obj).unknown ∧
    CacheOk (st'.maps obj).base (st'.maps obj).layers ∧
    (st'.maps obj).invs = (st.maps obj).invs ++ [iimplies (.lift r) (iimplies .present pred)] ∧
    ∀ ρ, sat st'.constraints ρ →
      (r.den ρ = true → (∀ i ∈ items (st.maps obj).base (st.maps obj).layers, Holds ρ pred i) ∧ Holds ρ pred (st.maps obj).unknown) ∧
      ((∀ i ∈ items (st.maps obj).base (st.maps obj).layers, Holds ρ pred i) → Holds ρ pred (st.maps obj).unknown → r.den ρ = true) := by
  obtain ⟨n, hn⟩ := hp
  have hpp : ∃ n, (iimplies .present pred).pure n := ⟨n, trivial, hn⟩
  have hfz : freezeB st (iimplies .present pred) = iimplies .present pred := freezeB_pure st (n := n) _ ⟨trivial, hn⟩
  set m := st.maps obj with hmd
  have hce := known_eq m.base m.layers hc
  unfold forall_ at hg
  rw [hfz] at hg
  simp only [← hmd, he, Bool.false_eq_true, if_false] at hg
  set st1 := st.setMap obj (m.setLower 0 (known m.base m.layers).2) with hst1
  have hm1 : st1.maps obj = m.setLower 0 (known m.base m.layers).2 := setMap_same _ _ _
  have hlay1 : (st1.maps obj).layers = (known m.base m.layers).2 := by rw [hm1]; simp [MapS.setLower]
  have hbase1 : (st1.maps obj).base = m.base := by rw [hm1]; rfl
  have hce1 := known_eq (st1.maps obj).base (st1.maps obj).layers (by rw [hbase1, hlay1]; exact hce.2.1)
  obtain ⟨bs, hbs, hbsd⟩ := applyAll_sem fuel st1 hpp (known m.base m.layers).1
  rw [hbs] at hg
  simp only at hg
  set o := overfullCheck st1 obj 0 with hod
  have ho2 : o.2 = st1.setMap obj ((st1.maps obj).setLower 0 (known (st1.maps obj).base (st1.maps obj).layers).2) := by
    rw [hod]; unfold overfullCheck; simp only [List.drop_zero]
  obtain ⟨u, hu, hud⟩ := applyInv_sem (get fuel) o.2 (iimplies .present pred) m.unknown (.lit true) hpp
  rw [hu] at hg
  simp only at hg
  unfold addInv at hg
  have hrp : ∃ n, (iimplies (.lift (.var o.2.next)) (iimplies .present pred)).pure n :=
    ⟨max n (o.2.next + 1), by show o.2.next < _; omega, trivial, IB.pure_mono (Nat.le_max_left _ _) _ hn⟩
  set st2 := { o.2 with next := o.2.next + 1 }.add
    [.iff (.var o.2.next) (.and (andAll bs) (implies o.1 (implies (isUnknown m.unknown.key (known m.base m.layers).1) u)))] with hst2
  obtain ⟨b, hb, hbd⟩ := applyInv_sem (get fuel) st2 (iimplies (.lift (.var o.2.next)) (iimplies .present pred)) (st2.maps obj).unknown (.lit true) hrp
  rw [hb] at hg
  simp only [Option.some.injEq, Prod.mk.injEq] at hg
  obtain ⟨rfl, rfl⟩ := hg
  have hmo : (st2.add [b]).maps obj = (st1.maps obj).setLower 0 (known (st1.maps obj).base (st1.maps obj).layers).2 := by
    show o.2.maps obj = _
    rw [ho2, setMap_same]
  have hunk : (st2.maps obj).unknown = m.unknown := by
    have : (st2.maps obj) = (st2.add [b]).maps obj := rfl
    rw [this, hmo]; show (st1.maps obj).unknown = _; rw [hm1]; rfl
  have hlay : ((st1.maps obj).setLower 0 (known (st1.maps obj).base (st1.maps obj).layers).2).layers = (known (st1.maps obj).base (st1.maps obj).layers).2 := by
    simp [MapS.setLower]
  rw [setMap_same, hmo]
  refine ⟨fun c hc => ?_, fun x hx => ?_, hbase1, ?_, ?_, ?_, ?_, ?_, fun ρ hs => ?_⟩
  · show c ∈ (st2.add [b]).constraints
    simp only [State.add, hst2, List.mem_append]
    refine .inr (.inr ?_)
    show c ∈ o.2.constraints
    rw [ho2]; exact hc
  · rw [setMap_other _ hx]
    show o.2.maps x = _
    rw [ho2, setMap_other _ hx, hst1, setMap_other _ hx]
  · show SameLayers ((st1.maps obj).setLower 0 _).layers m.layers
    rw [hlay]
    refine hce1.2.2.trans ?_
    rw [hlay1]; exact hce.2.2
  · show (st1.maps obj).baseLength = _; rw [hm1]; rfl
  · show (st1.maps obj).unknown = _; rw [hm1]; rfl
  · show CacheOk (st1.maps obj).base ((st1.maps obj).setLower 0 _).layers
    rw [hlay]; exact hce1.2.1
  · show (st1.maps obj).invs ++ _ = _; rw [hm1]; rfl
  · have hs1 := hs (.iff (.var o.2.next) (.and (andAll bs) (implies o.1 (implies (isUnknown m.unknown.key (known m.base m.layers).1) u)))) (by
      show _ ∈ (st2.add [b]).constraints
      simp [State.add, hst2])
    have hs2 := hs b (by show _ ∈ (st2.add [b]).constraints; simp [State.add])
    have hitems : (∀ b ∈ bs, b.den ρ = true) ↔ ∀ i ∈ items m.base m.layers, Holds ρ pred i := by
      rw [hbsd ρ, hce.1]
      exact ⟨fun h i hi => (sem_present pred ρ i).1 (h i hi), fun h i hi => (sem_present pred ρ i).2 (h i hi)⟩
    have hU : u.den ρ = true ↔ Holds ρ pred m.unknown := by rw [hud ρ]; exact sem_present pred ρ _
    simp only [B.den, beq_iff_eq] at hs1
    refine ⟨fun hr => ⟨hitems.1 ?_, ?_⟩, fun h1 h2 => ?_⟩
    · have hr' : ρ.bl o.2.next = true := hr
      rw [hr'] at hs1
      have := (Bool.and_eq_true _ _ ▸ hs1.symm : (andAll bs).den ρ = true ∧ _).1
      rw [den_andAll, List.all_eq_true] at this
      exact this
    · rw [hbd ρ, hunk] at hs2
      have : (iimplies .present pred).sem noMaps ρ (m.unknown.key.den ρ) (m.unknown.value.den ρ) (m.unknown.present.den ρ) = true := by
        have hr' : ρ.bl o.2.next = true := hr
        simpa [iimplies, IB.sem, B.den, hr'] using hs2
      exact (sem_present pred ρ _).1 this
    · show ρ.bl o.2.next = true
      rw [hs1, Bool.and_eq_true]
      refine ⟨by rw [den_andAll, List.all_eq_true]; exact hitems.2 h1, ?_⟩
      rw [den_implies]; intro _
      rw [den_implies]; intro _
      exact hU.2 h2

theorem setMap_maps (st : State) (obj : Nat) (m : MapS) (o : Nat) : (st.setMap obj m).maps o = if o = obj then m else st.maps o := rfl

/-- A read changes no unknown item. -/
theorem get_unknown (fuel : Nat) {st st' : State} {obj : Nat} {key : E} {r : E × B} (hn : NoReads (st.maps obj).invs)
    (hg : get (fuel + 1) st obj none key none (.lit true) = some (r, st')) : (st'.maps obj).unknown = (st.maps obj).unknown := by
  set m := st.maps obj with hmd
  unfold get at hg
  simp only [← hmd, show skip m none = 0 from rfl, List.drop_zero] at hg
  split at hg
  · simp only [Option.some.injEq, Prod.mk.injEq] at hg
    obtain ⟨-, rfl⟩ := hg
    rfl
  · split at hg
    · simp only [Option.some.injEq, Prod.mk.injEq] at hg
      obtain ⟨-, rfl⟩ := hg
      rw [setMap_same]; rfl
    · unfold getNew at hg
      simp only [setMap_same, show (st.setMap obj (m.setLower 0 (known m.base m.layers).2)).next = st.next from rfl] at hg
      split at hg
      · simp at hg
      · rename_i bs st2 hbs
        obtain ⟨bs', hbs', -⟩ := applyInvs_all (get fuel) ⟨key, .var st.next, .var st.next⟩ (.lit true)
          ((({ st.setMap obj (m.setLower 0 (known m.base m.layers).2) with next := st.next + 1 } : State).add (hintConstraint (.lit true) (.var st.next) none)).setMap obj
            { m.setLower 0 (known m.base m.layers).2 with base := (m.setLower 0 (known m.base m.layers).2).base ++ [⟨key, .var st.next, .var st.next⟩] })
          (invs := (m.setLower 0 (known m.base m.layers).2).invs) hn
        have hbs2 : some (bs, st2) = some (bs', _) := hbs.symm.trans hbs'
        simp only [Option.some.injEq, Prod.mk.injEq] at hbs2 hg
        obtain ⟨rfl, rfl⟩ := hbs2
        obtain ⟨-, rfl⟩ := hg
        obtain ⟨S1, hS1⟩ : ∃ S1 : State, S1 = ((({ st.setMap obj (m.setLower 0 (known m.base m.layers).2) with next := st.next + 1 } : State).add (hintConstraint (.lit true) (.var st.next) none)).setMap obj
          { m.setLower 0 (known m.base m.layers).2 with base := (m.setLower 0 (known m.base m.layers).2).base ++ [⟨key, .var st.next, .var st.next⟩] }) := ⟨_, rfl⟩
        rw [← hS1]
        show ((overfullCheck S1 obj 0).2.maps obj).unknown = _
        simp only [overfullCheck, setMap_same]
        show (S1.maps obj).unknown = _
        rw [hS1, setMap_same]; rfl

/-- An update is a read and a new layer. -/
theorem set_shape (fuel : Nat) {st st' : State} {obj : Nat} {key value : E} (hn : NoReads (st.maps obj).invs)
    (hg : Verif.Tool.GhostMap.set (fuel + 1) st obj key value = some st') {ρ : Env} (hs : sat st'.constraints ρ) (hc : MapC ρ (st.maps obj))
    (hp : PlainRead st obj key) (hf : flattens (st.maps obj).layers key = false) :
    ∃ r st1 len, get (fuel + 1) st obj none key none (.lit true) = some (r, st1) ∧ st1.constraints = st'.constraints ∧
      st'.maps obj = { st1.maps obj with layers := ⟨[⟨key, value, .lit true⟩], len, (0, [])⟩ :: (st1.maps obj).layers } := by
  unfold Verif.Tool.GhostMap.set at hg
  split at hg
  · simp at hg
  · rename_i r st1 hg1
    split at hg
    · simp at hg
    · rename_i p hp'
      obtain rfl : _ = st' := by simpa using hg
      obtain ⟨-, -, -, h4⟩ := get_cons fuel hn hg1
      obtain ⟨-, hsl, -⟩ := h4 ρ hs hc hp.1 hp.2
      refine ⟨r, st1, (lengthOf (st1.maps obj) (st1.maps obj).layers).add (.ite p (.const 0) (.const 1)), hg1, rfl, ?_⟩
      rw [setMap_same]
      unfold withItemLayer
      simp only [flattens_same hsl, hf, Bool.false_eq_true, if_false]

theorem remove_shape (fuel : Nat) {st st' : State} {obj : Nat} {key : E} (hn : NoReads (st.maps obj).invs)
    (hg : remove (fuel + 1) st obj key = some st') {ρ : Env} (hs : sat st'.constraints ρ) (hc : MapC ρ (st.maps obj))
    (hp : PlainRead st obj key) (hf : flattens (st.maps obj).layers key = false) :
    ∃ r st1 value len, get (fuel + 1) st obj none key none (.lit true) = some (r, st1) ∧ st1.constraints = st'.constraints ∧
      st'.maps obj = { st1.maps obj with layers := ⟨[⟨key, value, .lit false⟩], len, (0, [])⟩ :: (st1.maps obj).layers } := by
  unfold remove at hg
  split at hg
  · simp at hg
  · rename_i r st1 hg1
    obtain rfl := Option.some.inj hg
    obtain ⟨-, -, -, h4⟩ := get_cons fuel hn hg1
    obtain ⟨-, hsl, -⟩ := h4 ρ hs hc hp.1 hp.2
    refine ⟨r, st1, .var st1.next, (lengthOf (st1.maps obj) (st1.maps obj).layers).add (.ite r.2 (.const (2 ^ 64 - 1)) (.const 0)), hg1, rfl, ?_⟩
    rw [setMap_same]
    unfold withItemLayer
    simp only [flattens_same hsl, hf, Bool.false_eq_true, if_false]

/-- If the Boolean is true, all that is known of a map, and all that will be learned of it, satisfies the predicate. -/
structure Kept (ρ : Env) (m : MapS) (r : B) (pred : IB) : Prop where
  items : r.den ρ = true → ∀ i ∈ items m.base m.layers, Holds ρ pred i
  inv : iimplies (.lift r) (iimplies .present pred) ∈ m.invs
  unknown : r.den ρ = true → Holds ρ pred m.unknown

theorem Kept.get (fuel : Nat) {ρ : Env} {st st1 : State} {obj : Nat} {key : E} {r : B} {pred : IB} {x : E × B} (hk : Kept ρ (st.maps obj) r pred)
    (hc : MapC ρ (st.maps obj)) (hg : Verif.Tool.GhostMap.get (fuel + 1) st obj none key none (.lit true) = some (x, st1))
    (hs : sat st1.constraints ρ) (hp : PlainRead st obj key) :
    Kept ρ (st1.maps obj) r pred ∧ (r.den ρ = true → x.2.den ρ = true → pred.sem noMaps ρ (key.den ρ) (x.1.den ρ) true = true) := by
  obtain ⟨-, -, h3, h4⟩ := get_cons fuel hc.invs hg
  obtain ⟨hm, hsl, hbl, ⟨more, hmore⟩, ha⟩ := h4 ρ hs hc hp.1 hp.2
  have hit : r.den ρ = true → ∀ i ∈ Verif.Tool.GhostMap.items (st1.maps obj).base (st1.maps obj).layers, Holds ρ pred i := by
    intro hr t ht
    rcases get_invs fuel hc.invs hg ρ hs hc t ht with ⟨j, hj, e⟩ | h
    · have := hm.consistent t ht j (by rw [hmore]; simp [hj]) e.symm
      have hh := hk.items hr j hj
      unfold Holds at hh ⊢
      rw [this.1, this.2, ← e]
      exact hh
    · have := h _ hk.inv
      refine (sem_present pred ρ t).1 ?_
      simpa [iimplies, IB.sem, hr] using this
  refine ⟨⟨hit, by rw [h3]; exact hk.inv, by rw [get_unknown fuel hc.invs hg]; exact hk.unknown⟩, fun hr hx => ?_⟩
  rcases ha with ⟨i, hi, e1, e2, e3⟩ | ⟨e, -⟩
  · have := hit hr i hi (e3.trans hx)
    rwa [e1, e2] at this
  · rw [e] at hx; simp at hx

theorem Kept.push {ρ : Env} {m : MapS} {r : B} {pred : IB} (hk : Kept ρ m r pred) {key value : E} {b : Bool} {len : E}
    (hb : b = true → r.den ρ = true → pred.sem noMaps ρ (key.den ρ) (value.den ρ) true = true) :
    Kept ρ { m with layers := ⟨[⟨key, value, .lit b⟩], len, (0, [])⟩ :: m.layers } r pred := by
  refine ⟨fun hr t ht => ?_, hk.inv, hk.unknown⟩
  rcases List.mem_append.1 ht with ht | ht
  · rw [List.mem_singleton.1 ht]; exact fun h => hb h hr
  · obtain ⟨j, hj, e, hv, hp⟩ := mem_transform ht
    have hv := hv ρ
    have hp := hp ρ
    unfold Holds
    rw [hv, hp, e]
    by_cases he : key.den ρ = j.key.den ρ
    · rw [← he]
      simpa [B.den] using fun h => hb h hr
    · have := hk.items hr j hj
      unfold Holds at this
      simpa [he] using this

/-- What a program puts into a map satisfies a predicate. -/
def Puts (fuel : Nat) (ρ : Env) (obj : Nat) (pred : IB) : State → Prog → Prop
  | _, .done => True
  | st, .get o key k => ∀ r st', Verif.Tool.GhostMap.get fuel st o none key none (.lit true) = some (r, st') → Puts fuel ρ obj pred st' (k r.1 r.2)
  | st, .length o k => Puts fuel ρ obj pred st (k (lengthOf (st.maps o) (st.maps o).layers))
  | st, .set o key value k => (o = obj → pred.sem noMaps ρ (key.den ρ) (value.den ρ) true = true) ∧
    ∀ st', Verif.Tool.GhostMap.set fuel st o key value = some st' → Puts fuel ρ obj pred st' k
  | st, .remove o key k => ∀ st', Verif.Tool.GhostMap.remove fuel st o key = some st' → Puts fuel ρ obj pred st' k
  | st, .assume c k => Puts fuel ρ obj pred (st.add [c]) k

theorem kept_log (fuel : Nat) (ρ : Env) (obj : Nat) (pred : IB) (r : B) : ∀ (p : Prog) (st st' : State) (L : List Entry), (∀ o, MapC ρ (st.maps o)) →
    Kept ρ (st.maps obj) r pred → p.Plain (fuel + 1) ρ st → Puts (fuel + 1) ρ obj pred st p → p.log (fuel + 1) st = some (st', L) →
    sat st'.constraints ρ →
    (∀ o, MapC ρ (st'.maps o)) ∧ Kept ρ (st'.maps obj) r pred ∧
    ∀ e ∈ L, e.obj = obj → r.den ρ = true → e.present.den ρ = true → pred.sem noMaps ρ (e.key.den ρ) (e.value.den ρ) true = true := by
  have inv : ∀ {st st' : State} {obj : Nat}, (∀ o, MapC ρ (st.maps o)) → (∀ o, o ≠ obj → st'.maps o = st.maps o) →
      (st'.maps obj).invs = (st.maps obj).invs → ∀ o, NoReads (st'.maps o).invs := by
    intro st st' obj hn h2 h3 o
    by_cases ho : o = obj
    · subst ho; rw [h3]; exact (hn o).invs
    · rw [h2 o ho]; exact (hn o).invs
  intro p
  induction p with
  | done =>
    intro st st' L hm hk _ _ hl _
    simp only [Prog.log, Option.some.injEq, Prod.mk.injEq] at hl
    rw [← hl.1, ← hl.2]; exact ⟨hm, hk, by simp⟩
  | get o key k ih =>
    intro st st' L hm hk hp hq hl hs
    unfold Prog.log at hl
    split at hl
    · simp at hl
    · rename_i x st1 hg
      rw [Option.map_eq_some_iff] at hl
      obtain ⟨y, hy, e⟩ := hl
      obtain ⟨rfl, rfl⟩ := Prod.mk.inj e
      obtain ⟨h1, h2, h3, h4⟩ := get_cons fuel (hm o).invs hg
      have hs1 : sat st1.constraints ρ := fun c hc => hs c (log_mono fuel _ st1 y.1 y.2 (inv hm h2 h3) hy c hc)
      have hm1 : ∀ a, MapC ρ (st1.maps a) := by
        intro a
        by_cases ha : a = o
        · subst ha; exact (h4 ρ hs1 (hm a) hp.1.1 hp.1.2).1
        · rw [h2 a ha]; exact hm a
      have hk1 : Kept ρ (st1.maps obj) r pred := by
        by_cases ha : obj = o
        · subst ha; exact (hk.get fuel (hm obj) hg hs1 hp.1).1
        · rw [h2 obj ha]; exact hk
      obtain ⟨a, b, c⟩ := ih x.1 x.2 st1 y.1 y.2 hm1 hk1 (hp.2 x st1 hg) (hq x st1 hg) hy hs
      refine ⟨a, b, fun e he ho hr hpr => ?_⟩
      rcases List.mem_cons.1 he with rfl | he
      · change o = obj at ho
        subst ho
        exact (hk.get fuel (hm o) hg hs1 hp.1).2 hr hpr
      · exact c e he ho hr hpr
  | length o k ih => intro st st' L hm hk hp hq hl hs; exact ih _ st st' L hm hk hp hq hl hs
  | set o key value k ih =>
    intro st st' L hm hk hp hq hl hs
    unfold Prog.log at hl
    split at hl
    · simp at hl
    · rename_i st1 hg
      obtain ⟨h1, h2, h3, h4⟩ := set_cons fuel (hm o).invs hg
      have hs1 : sat st1.constraints ρ := fun c hc => hs c (log_mono fuel _ st1 st' L (inv hm h2 h3) hl c hc)
      have hm1 : ∀ a, MapC ρ (st1.maps a) := by
        intro a
        by_cases ha : a = o
        · subst ha; exact (h4 ρ hs1 (hm a) hp.1 hp.2.1 hp.2.2.1).1
        · rw [h2 a ha]; exact hm a
      have hk1 : Kept ρ (st1.maps obj) r pred := by
        by_cases ha : obj = o
        · subst ha
          obtain ⟨x, st0, len, hg0, hc0, e⟩ := set_shape fuel (hm obj).invs hg hs1 (hm obj) hp.1 hp.2.1
          rw [e]
          exact (hk.get fuel (hm obj) hg0 (by rw [hc0]; exact hs1) hp.1).1.push fun _ _ => hq.1 rfl
        · rw [h2 obj ha]; exact hk
      exact ih st1 st' L hm1 hk1 (hp.2.2.2 st1 hg) (hq.2 st1 hg) hl hs
  | remove o key k ih =>
    intro st st' L hm hk hp hq hl hs
    unfold Prog.log at hl
    split at hl
    · simp at hl
    · rename_i st1 hg
      obtain ⟨h1, h2, h3, h4⟩ := remove_cons fuel (hm o).invs hg
      have hs1 : sat st1.constraints ρ := fun c hc => hs c (log_mono fuel _ st1 st' L (inv hm h2 h3) hl c hc)
      have hm1 : ∀ a, MapC ρ (st1.maps a) := by
        intro a
        by_cases ha : a = o
        · subst ha; exact (h4 ρ hs1 (hm a) hp.1 hp.2.1).1
        · rw [h2 a ha]; exact hm a
      have hk1 : Kept ρ (st1.maps obj) r pred := by
        by_cases ha : obj = o
        · subst ha
          obtain ⟨x, st0, v, len, hg0, hc0, e⟩ := remove_shape fuel (hm obj).invs hg hs1 (hm obj) hp.1 hp.2.1
          rw [e]
          exact (hk.get fuel (hm obj) hg0 (by rw [hc0]; exact hs1) hp.1).1.push fun h => by simp at h
        · rw [h2 obj ha]; exact hk
      exact ih st1 st' L hm1 hk1 (hp.2.2 st1 hg) (hq st1 hg) hl hs
  | assume a k ih =>
    intro st st' L hm hk hp hq hl hs
    exact ih (st.add [a]) st' L hm hk hp hq hl hs

/-- The maps and the promise of `forall` right after it. -/
theorem forall_kept (fuel : Nat) {st st' : State} {obj : Nat} {pred : IB} {r : B} (hp : ∃ n, pred.pure n) {ρ : Env} (hm : ∀ o, MapC ρ (st.maps o))
    (he : isEmpty (lengthOf (st.maps obj) (st.maps obj).layers) = false) (hg : forall_ fuel st obj pred = some (r, st')) :
    (∀ o, NoReads (st'.maps o).invs) ∧ (sat st'.constraints ρ → (∀ o, MapC ρ (st'.maps o)) ∧ Kept ρ (st'.maps obj) r pred) := by
  obtain ⟨h1, h2, h3, h4, h5, h6, h7, h8, h9⟩ := forall_info fuel hp (hm obj).caches he hg
  have hn : NoReads (st'.maps obj).invs := by
    rw [h8]
    intro inv hi
    rcases List.mem_append.1 hi with hi | hi
    · exact (hm obj).invs inv hi
    · rw [List.mem_singleton.1 hi]
      obtain ⟨n, hn⟩ := hp
      obtain ⟨k, hk⟩ := B.exists_within r
      exact ⟨max n k, B.within_mono (Nat.le_max_right _ _) _ hk, trivial, IB.pure_mono (Nat.le_max_left _ _) _ hn⟩
  have hit : items (st'.maps obj).base (st'.maps obj).layers = items (st.maps obj).base (st.maps obj).layers := by rw [h3]; exact h4.items
  have hlen : lengthOf (st'.maps obj) (st'.maps obj).layers = lengthOf (st.maps obj) (st.maps obj).layers := h4.lengthOf h5
  refine ⟨fun o => ?_, fun hs => ⟨fun o => ?_, ?_, ?_, ?_⟩⟩
  · by_cases ho : o = obj
    · subst ho; exact hn
    · rw [h2 o ho]; exact (hm o).invs
  · by_cases ho : o = obj
    · subst ho
      exact ⟨h7, hn, by rw [hit]; exact (hm o).consistent, by rw [hit, hlen]; exact (hm o).atMost, by rw [hlen]; exact (hm o).length⟩
    · rw [h2 o ho]; exact hm o
  · intro hr; rw [hit]; exact ((h9 ρ hs).1 hr).1
  · rw [h8]; simp
  · intro hr; rw [h6]; exact ((h9 ρ hs).1 hr).2

theorem log_noReads (fuel : Nat) : ∀ (p : Prog) (st st' : State) (L : List Entry), (∀ o, NoReads (st.maps o).invs) →
    p.log (fuel + 1) st = some (st', L) → ∀ o, NoReads (st'.maps o).invs := by
  have inv : ∀ {st st' : State} {obj : Nat}, (∀ o, NoReads (st.maps o).invs) → (∀ o, o ≠ obj → st'.maps o = st.maps o) →
      (st'.maps obj).invs = (st.maps obj).invs → ∀ o, NoReads (st'.maps o).invs := by
    intro st st' obj hn h2 h3 o
    by_cases ho : o = obj
    · subst ho; rw [h3]; exact hn o
    · rw [h2 o ho]; exact hn o
  intro p
  induction p with
  | done => intro st st' L hn h; simp only [Prog.log, Option.some.injEq, Prod.mk.injEq] at h; rw [← h.1]; exact hn
  | get obj key k ih =>
    intro st st' L hn h
    unfold Prog.log at h
    split at h
    · simp at h
    · rename_i r st1 hg
      obtain ⟨h1, h2, h3, -⟩ := get_cons fuel (hn obj) hg
      rw [Option.map_eq_some_iff] at h
      obtain ⟨x, hx, e⟩ := h
      obtain ⟨rfl, -⟩ := Prod.mk.inj e
      exact ih r.1 r.2 st1 x.1 x.2 (inv hn h2 h3) hx
  | length obj k ih => intro st st' L hn h; exact ih _ st st' L hn h
  | set obj key value k ih =>
    intro st st' L hn h
    unfold Prog.log at h
    split at h
    · simp at h
    · rename_i st1 hg
      obtain ⟨h1, h2, h3, -⟩ := set_cons fuel (hn obj) hg
      exact ih st1 st' L (inv hn h2 h3) h
  | remove obj key k ih =>
    intro st st' L hn h
    unfold Prog.log at h
    split at h
    · simp at h
    · rename_i st1 hg
      obtain ⟨h1, h2, h3, -⟩ := remove_cons fuel (hn obj) hg
      exact ih st1 st' L (inv hn h2 h3) h
  | assume a k ih => intro st st' L hn h; exact ih (st.add [a]) st' L hn h

/-- `forall` forgets no constraint, and adds an invariant that reads no map. -/
theorem forall_both (fuel : Nat) {st st' : State} {obj : Nat} {pred : IB} {r : B} (hp : ∃ n, pred.pure n)
    (hg : forall_ fuel st obj pred = some (r, st')) :
    (∀ c ∈ st.constraints, c ∈ st'.constraints) ∧ ((∀ o, NoReads (st.maps o).invs) → ∀ o, NoReads (st'.maps o).invs) := by
  obtain ⟨n, hn⟩ := hp
  have hpp : ∃ n, (iimplies .present pred).pure n := ⟨n, trivial, hn⟩
  have hfz : freezeB st (iimplies .present pred) = iimplies .present pred := freezeB_pure st (n := n) _ ⟨trivial, hn⟩
  unfold forall_ at hg
  rw [hfz] at hg
  dsimp only at hg
  split at hg
  · simp only [Option.some.injEq, Prod.mk.injEq] at hg
    rw [← hg.2]; exact ⟨fun c hc => hc, fun h => h⟩
  · set m := st.maps obj with hmd
    set st1 := st.setMap obj (m.setLower 0 (known m.base m.layers).2) with hst1
    obtain ⟨bs, hbs, -⟩ := applyAll_sem fuel st1 hpp (known m.base m.layers).1
    simp only [hbs] at hg
    obtain ⟨u, hu, -⟩ := applyInv_sem (get fuel) (overfullCheck st1 obj 0).2 (iimplies .present pred) m.unknown (.lit true) hpp
    simp only [hu] at hg
    unfold addInv at hg
    have hrp : ∃ n, (iimplies (.lift (.var (overfullCheck st1 obj 0).2.next)) (iimplies .present pred)).pure n :=
      ⟨max n ((overfullCheck st1 obj 0).2.next + 1), by show (overfullCheck st1 obj 0).2.next < _; omega, trivial, IB.pure_mono (Nat.le_max_left _ _) _ hn⟩
    set st2 := { (overfullCheck st1 obj 0).2 with next := (overfullCheck st1 obj 0).2.next + 1 }.add
      [.iff (.var (overfullCheck st1 obj 0).2.next) (.and (andAll bs) (implies (overfullCheck st1 obj 0).1 (implies (isUnknown m.unknown.key (known m.base m.layers).1) u)))] with hst2
    obtain ⟨b, hb, -⟩ := applyInv_sem (get fuel) st2 (iimplies (.lift (.var (overfullCheck st1 obj 0).2.next)) (iimplies .present pred)) (st2.maps obj).unknown (.lit true) hrp
    simp only [hb, Option.some.injEq, Prod.mk.injEq] at hg
    rw [← hg.2]
    have hmaps : ∀ o, ((overfullCheck st1 obj 0).2.maps o).invs = (st.maps o).invs := by
      intro o
      have : (overfullCheck st1 obj 0).2 = st1.setMap obj ((st1.maps obj).setLower 0 (known (st1.maps obj).base (st1.maps obj).layers).2) := by
        unfold overfullCheck; simp only [List.drop_zero]
      rw [this]
      by_cases ho : o = obj
      · subst ho
        rw [setMap_same]
        show (st1.maps o).invs = _
        rw [hst1, setMap_same]; rfl
      · rw [setMap_other _ ho, hst1, setMap_other _ ho]
    refine ⟨fun c hc => ?_, fun h o => ?_⟩
    · show c ∈ (st2.add [b]).constraints
      simp only [State.add, hst2, List.mem_append]
      refine .inr (.inr ?_)
      have : (overfullCheck st1 obj 0).2.constraints = st.constraints := by unfold overfullCheck; rfl
      rw [this]; exact hc
    · by_cases ho : o = obj
      · subst ho
        rw [setMap_same]
        show NoReads (((overfullCheck st1 o 0).2.maps o).invs ++ [_])
        rw [hmaps]
        intro inv hi
        rcases List.mem_append.1 hi with hi | hi
        · exact h o inv hi
        · rw [List.mem_singleton.1 hi]; exact hrp
      · rw [setMap_other _ ho]
        show NoReads ((overfullCheck st1 obj 0).2.maps o).invs
        rw [hmaps]; exact h o

theorem forall_mono (fuel : Nat) {st st' : State} {obj : Nat} {pred : IB} {r : B} (hp : ∃ n, pred.pure n)
    (hg : forall_ fuel st obj pred = some (r, st')) : ∀ c ∈ st.constraints, c ∈ st'.constraints := (forall_both fuel hp hg).1

theorem forall_noReads (fuel : Nat) {st st' : State} {obj : Nat} {pred : IB} {r : B} (hp : ∃ n, pred.pure n)
    (hg : forall_ fuel st obj pred = some (r, st')) (h : ∀ o, NoReads (st.maps o).invs) : ∀ o, NoReads (st'.maps o).invs := (forall_both fuel hp hg).2 h

/-- `forall` on a map that is empty for sure is true. -/
theorem forall_empty (fuel : Nat) {st st' : State} {obj : Nat} {pred : IB} {r : B}
    (he : isEmpty (lengthOf (st.maps obj) (st.maps obj).layers) = true) (hg : forall_ fuel st obj pred = some (r, st')) : r = .lit true ∧ st' = st := by
  unfold forall_ at hg
  simp only [he, if_true, Option.some.injEq, Prod.mk.injEq] at hg
  exact ⟨hg.1.symm, hg.2.symm⟩

/-- The contents a new map may stand for: the invariants hold of every key, and the length is the number of present keys. -/
structure StartsAs (ρ : Env) (m : MapS) (c : Contents) : Prop where
  invs : ∀ inv ∈ m.invs, ∀ k, inv.sem noMaps ρ k (c k).1 (c k).2 = true
  finite : {k | (c k).2 = true}.Finite
  size : {k | (c k).2 = true}.ncard = m.baseLength.den ρ

/-- Finitely many keys of a map may have any contents that satisfy the invariants and fit the length. -/
def Fillable (ρ : Env) (m : MapS) : Prop :=
  ∀ (D : Finset Nat) (f : Nat → Nat × Bool), (∀ k ∈ D, ∀ inv ∈ m.invs, inv.sem noMaps ρ k (f k).1 (f k).2 = true) →
    (D.filter fun k => (f k).2 = true).card ≤ m.baseLength.den ρ → ∃ c, StartsAs ρ m c ∧ ∀ k ∈ D, c k = f k

/-- A map of which any key may be absent and infinitely many may be present. -/
theorem fillable_free {ρ : Env} {m : MapS} (v : Nat → Nat) (habs : ∀ inv ∈ m.invs, ∀ k, inv.sem noMaps ρ k 0 false = true)
    (hpres : {k | ∀ inv ∈ m.invs, inv.sem noMaps ρ k (v k) true = true}.Infinite) : Fillable ρ m := by
  classical
  intro D f hf hc
  set P := D.filter fun k => (f k).2 = true with hP
  have hinf : ({k | ∀ inv ∈ m.invs, inv.sem noMaps ρ k (v k) true = true} \ (D : Set Nat)).Infinite := hpres.sdiff D.finite_toSet
  obtain ⟨T, hT, hcard⟩ := hinf.exists_subset_card_eq (m.baseLength.den ρ - P.card)
  have hset : {k | ((fun k => if k ∈ D then f k else if k ∈ T then (v k, true) else (0, false)) k).2 = true} = ((P ∪ T : Finset Nat) : Set Nat) := by
    ext k
    simp only [Set.mem_ofPred_eq, Finset.coe_union, Set.mem_union, Finset.mem_coe, hP, Finset.mem_filter]
    by_cases hk : k ∈ D
    · have : k ∉ T := fun h => (hT h).2 hk
      simp [hk, this]
    · by_cases hkt : k ∈ T <;> simp [hk, hkt]
  have hdis : Disjoint P T := by
    rw [Finset.disjoint_left]
    intro k hk hkT
    exact (hT hkT).2 (Finset.mem_filter.1 hk).1
  refine ⟨fun k => if k ∈ D then f k else if k ∈ T then (v k, true) else (0, false), ⟨fun inv hi k => ?_, ?_, ?_⟩, fun k hk => by simp [hk]⟩
  · by_cases hk : k ∈ D
    · simp only [hk, if_true]; exact hf k hk inv hi
    · by_cases hkt : k ∈ T
      · simp only [hk, hkt, if_true, if_false]; exact (hT hkt).1 inv hi
      · simp only [hk, hkt, if_false]; exact habs inv hi k
  · rw [hset]; exact Finset.finite_toSet _
  · rw [hset, Set.ncard_coe_finset, Finset.card_union_of_disjoint hdis, hcard]; omega

/-- An array: the keys below the length are the present ones. -/
theorem fillable_array {ρ : Env} {m : MapS} {len : E} (hi : m.invs = [.iff (.rel (fun x y => decide (x < y)) .key (.lift len)) .present])
    (hl : m.baseLength = len) : Fillable ρ m := by
  classical
  intro D f hf _
  have hk : ∀ c : Contents, (∀ k, ((c k).2 = true ↔ k < len.den ρ)) → StartsAs ρ m c := by
    intro c hc
    have hset : {k | (c k).2 = true} = ((Finset.range (len.den ρ) : Finset Nat) : Set Nat) := by
      ext k; simp [hc k]
    refine ⟨fun inv h k => ?_, by rw [hset]; exact Finset.finite_toSet _, by rw [hset, Set.ncard_coe_finset, Finset.card_range, hl]⟩
    rw [hi, List.mem_singleton] at h
    subst h
    show (decide (k < len.den ρ) == (c k).2) = true
    rw [beq_iff_eq, Bool.eq_iff_iff, decide_eq_true_eq]
    exact (hc k).symm
  refine ⟨fun k => if k ∈ D then f k else (0, decide (k < len.den ρ)), hk _ fun k => ?_, fun k hk => by simp [hk]⟩
  by_cases hkd : k ∈ D
  · have : (decide (k < len.den ρ) == (f k).2) = true := hf k hkd (.iff (.rel (fun x y => decide (x < y)) .key (.lift len)) .present) (by rw [hi]; simp)
    rw [beq_iff_eq, Bool.eq_iff_iff, decide_eq_true_eq] at this
    simp only [hkd, if_true]; exact this.symm
  · simp [hkd]

/-- An empty map. -/
theorem fillable_empty {ρ : Env} {m : MapS} (hi : m.invs = [.not .present]) (hl : m.baseLength = .const 0) : Fillable ρ m := by
  classical
  intro D f hf _
  have h0 : ∀ k ∈ D, (f k).2 = false := by
    intro k hk
    have := hf k hk (.not .present) (by rw [hi]; simp)
    simpa [IB.sem] using this
  have hset : {k | ((fun k => if k ∈ D then f k else (0, false)) k).2 = true} = (∅ : Set Nat) := by
    ext k
    by_cases hk : k ∈ D
    · simp [hk, h0 k hk]
    · simp [hk]
  refine ⟨fun k => if k ∈ D then f k else (0, false), ⟨fun inv h k => ?_, by rw [hset]; exact Set.finite_empty, by rw [hset, hl]; simp [E.den]⟩, fun k hk => by simp [hk]⟩
  rw [hi, List.mem_singleton] at h
  subst h
  by_cases hk : k ∈ D
  · simp [IB.sem, hk, h0 k hk]
  · simp [IB.sem, hk]

theorem newEmpty_fillable (fuel : Nat) {st st' : State} {obj : Nat} (h : newEmpty fuel st obj = some st') (ρ : Env) : Fillable ρ (st'.maps obj) := by
  unfold newEmpty addInv at h
  obtain ⟨b, hb, -⟩ := applyInv_sem (get fuel) (State.setMap { st with next := st.next + 2 } obj ⟨[], [], .const 0, ⟨.var st.next, .var (st.next + 1), .var st.next⟩, []⟩)
    (.not .present) ((State.setMap { st with next := st.next + 2 } obj ⟨[], [], .const 0, ⟨.var st.next, .var (st.next + 1), .var st.next⟩, []⟩).maps obj).unknown (.lit true) ⟨0, trivial⟩
  simp only [hb, Option.some.injEq] at h
  subst h
  rw [setMap_same]
  exact fillable_empty (by simp [State.add, setMap_same]) (by simp [State.add, setMap_same])

theorem newArray_fillable (fuel : Nat) {st st' : State} {obj : Nat} {len : E} (h : newArray fuel st obj len = some st') (ρ : Env) : Fillable ρ (st'.maps obj) := by
  unfold newArray addInv at h
  obtain ⟨n, hn⟩ := E.exists_within len
  obtain ⟨b, hb, -⟩ := applyInv_sem (get fuel) (State.setMap { st with next := st.next + 2 } obj ⟨[], [], len, ⟨.var st.next, .var (st.next + 1), .var st.next⟩, []⟩)
    (.iff (.rel (fun x y => decide (x < y)) .key (.lift len)) .present) ((State.setMap { st with next := st.next + 2 } obj ⟨[], [], len, ⟨.var st.next, .var (st.next + 1), .var st.next⟩, []⟩).maps obj).unknown
    (.lit true) ⟨n, ⟨trivial, hn⟩, trivial⟩
  simp only [hb, Option.some.injEq] at h
  subst h
  rw [setMap_same]
  exact fillable_array (len := len) (by simp [State.add, setMap_same]) (by simp [State.add, setMap_same])

end Verif.Tool.GhostMap.Exact

namespace Verif.Props

open Verif.Tool.GhostMap Verif.Tool.GhostMap.Exact

/-- C75, for programs whose reads are not answered by the unknown item and whose updates make new versions. Take any such
program on new maps and any assignment that satisfies the constraints at its end. Then there are ordinary maps that
satisfy the invariants, have the assumed lengths, and on which the program runs the same way: every read returns what
the map has at that point, every length is the number of keys at that point, and every condition assumed holds. So
nothing the verifier takes for possible of such a program is impossible. What is missing: the unknown item, for which
it is false (`C21_unknown_disagrees`), updates put into the newest layer, and `forall`, for which it is false
(`C75_forall_spurious`). -/
theorem C75_possible_partial (fuel : Nat) (ρ : Env) (p : Prog) (st st' : State) (h : Fresh ρ st) (hf : ∀ o, Fillable ρ (st.maps o))
    (hp : p.Plain (fuel + 1) ρ st) (hr : p.run (fuel + 1) st = some st') (hs : sat st'.constraints ρ) :
    ∃ W : Nat → Contents, (∀ o, StartsAs ρ (st.maps o) (W o)) ∧
      p.Faithful (fuel + 1) ρ (fun o k => if (W o k).2 then some (W o k).1 else none) st := by
  classical
  obtain ⟨D, w, hI, hF⟩ := witness fuel ρ p st st' h.steady.maps hp hr hs
  have hno : ∀ o, ∀ k ∈ D o, ∃ x : Nat × Bool, w o k = opt x.1 x.2 ∧ ∀ inv ∈ (st.maps o).invs, inv.sem noMaps ρ k x.1 x.2 = true := by
    intro o k hk
    rcases (hI o).invs k hk with ⟨i, hi, -⟩ | ⟨v, b, e, h'⟩
    · rw [(h o).1, (h o).2.1] at hi; simp [items] at hi
    · exact ⟨(v, b), e, h'⟩
  have hch : ∀ o, ∃ f : Nat → Nat × Bool, ∀ k ∈ D o, w o k = opt (f k).1 (f k).2 ∧ ∀ inv ∈ (st.maps o).invs, inv.sem noMaps ρ k (f k).1 (f k).2 = true := by
    intro o
    refine ⟨fun k => if hk : k ∈ D o then (hno o k hk).choose else (0, false), fun k hk => ?_⟩
    simp only [hk, dif_pos]
    exact (hno o k hk).choose_spec
  have hlen : ∀ o, lengthOf (st.maps o) (st.maps o).layers = (st.maps o).baseLength := by
    intro o; rw [(h o).2.1]; rfl
  have hW : ∀ o, ∃ c, StartsAs ρ (st.maps o) c ∧ ∀ k ∈ D o, w o k = opt (c k).1 (c k).2 := by
    intro o
    obtain ⟨f, hf'⟩ := hch o
    have hcnt := (hI o).count
    rw [hlen o] at hcnt
    obtain ⟨c, hc, he⟩ := hf o (D o) f (fun k hk => (hf' k hk).2) (by
      refine le_trans (le_of_eq ?_) hcnt
      congr 1
      refine Finset.filter_congr fun k hk => ?_
      rw [(hf' k hk).1, opt_isSome])
    exact ⟨c, hc, fun k hk => by rw [he k hk]; exact (hf' k hk).1⟩
  refine ⟨fun o => (hW o).choose, fun o => (hW o).choose_spec.1, hF _ fun o => ?_⟩
  have hc := (hW o).choose_spec
  have hset : {j | ((fun k => if ((hW o).choose k).2 = true then some ((hW o).choose k).1 else none) j).isSome = true} = {k | ((hW o).choose k).2 = true} := by
    ext k
    cases hb : ((hW o).choose k).2 <;> simp [hb]
  exact ⟨fun k hk => (hc.2 k hk).symm, by rw [hset]; exact hc.1.finite, by rw [hset, hc.1.size, hlen]⟩

/-- C75: maps created empty and arrays may be filled in as the theorem above asks, and so may the maps of `start`, of
which nothing is known. -/
theorem C75_new_fillable (fuel : Nat) (ρ : Env) (st st' : State) (obj : Nat) :
    (newEmpty fuel st obj = some st' → Fillable ρ (st'.maps obj)) ∧
    (∀ len, newArray fuel st obj len = some st' → Fillable ρ (st'.maps obj)) ∧ Fillable ρ (start.maps obj) := by
  refine ⟨fun h => newEmpty_fillable fuel h ρ, fun len h => newArray_fillable fuel h ρ, ?_⟩
  refine fillable_free (fun _ => 0) (fun inv hi k => ?_) ?_
  · simp only [start, List.mem_singleton] at hi; subst hi; rfl
  · have : {k : Nat | ∀ inv ∈ (start.maps obj).invs, inv.sem noMaps ρ k 0 true = true} = Set.univ := by
      ext k
      simp only [start, List.mem_singleton, forall_eq, Set.mem_ofPred_eq, Set.mem_univ, iff_true]
      rfl
    rw [this]; exact Set.infinite_univ

/-- C75, `forall` and the reads before it. If `forall` is true, the present keys that were read of the same version of the
map satisfy the predicate; so after reading a value that violates it, `forall` is false. -/
theorem C75_forall_known_partial (fuel : Nat) (ρ : Env) (p : Prog) (st st1 st2 : State) (L : List Entry) (h : Fresh ρ st) (hp : p.Plain (fuel + 1) ρ st)
    (hl : p.log (fuel + 1) st = some (st1, L)) (obj : Nat) (pred : IB) (r : B) (hpred : ∃ n, pred.pure n)
    (hne : isEmpty (lengthOf (st1.maps obj) (st1.maps obj).layers) = false) (hg : forall_ fuel st1 obj pred = some (r, st2))
    (hs : sat st2.constraints ρ) (e : Entry) (he : e ∈ L) (ho : e.obj = obj) (hv : e.ver = (st1.maps obj).version)
    (hpr : e.present.den ρ = true) (hbad : pred.sem noMaps ρ (e.key.den ρ) (e.value.den ρ) true = false) : r.den ρ = false := by
  have hs1 : sat st1.constraints ρ := fun c hc => hs c (forall_mono fuel hpred hg c hc)
  have hst := log_steady fuel ρ p st st1 [] L h.steady hp hl hs1
  rw [List.nil_append] at hst
  obtain ⟨-, -, -, -, -, -, -, -, h9⟩ := forall_info fuel hpred (hst.maps obj).caches hne hg
  cases hr : r.den ρ with
  | false => rfl
  | true =>
    have ha := (hst.now e he (by rw [hv, ho])).2
    rw [ho] at ha
    rcases ha with ⟨i, hi, e1, e2, e3⟩ | ⟨e1, -⟩
    · have := ((h9 ρ hs).1 hr).1 i hi (e3.trans hpr)
      rw [e1, e2, hbad] at this
      simp at this
    · rw [hpr] at e1; simp at e1

/-- C75, `forall` and what follows. Run a program, ask `forall`, run another program that puts into the map only what
satisfies the predicate, and ask a second `forall` with a weaker predicate. If the first `forall` is true, every present
key read since satisfies the predicate, and the second `forall` is true. -/
theorem C75_forall_later_partial (fuel : Nat) (ρ : Env) (p q : Prog) (st st1 st2 st3 st4 : State) (L L' : List Entry) (h : Fresh ρ st)
    (hp : p.Plain (fuel + 1) ρ st) (hl : p.log (fuel + 1) st = some (st1, L)) (obj : Nat) (pred pred' : IB) (r r' : B)
    (hpred : ∃ n, pred.pure n) (hpred' : ∃ n, pred'.pure n) (hne : isEmpty (lengthOf (st1.maps obj) (st1.maps obj).layers) = false)
    (hg : forall_ fuel st1 obj pred = some (r, st2)) (hq : q.Plain (fuel + 1) ρ st2) (hput : Puts (fuel + 1) ρ obj pred st2 q)
    (hl' : q.log (fuel + 1) st2 = some (st3, L')) (hg' : forall_ fuel st3 obj pred' = some (r', st4)) (hs : sat st4.constraints ρ)
    (hr : r.den ρ = true) :
    (∀ e ∈ L', e.obj = obj → e.present.den ρ = true → pred.sem noMaps ρ (e.key.den ρ) (e.value.den ρ) true = true) ∧
    ((∀ k v, pred.sem noMaps ρ k v true = true → pred'.sem noMaps ρ k v true = true) → r'.den ρ = true) := by
  have hs3 : sat st3.constraints ρ := fun c hc => hs c (forall_mono fuel hpred' hg' c hc)
  have hs0 : ∀ {c}, c ∈ st1.constraints → c ∈ st2.constraints := fun hc => forall_mono fuel hpred hg _ hc
  have hn2 : ∀ o, NoReads (st2.maps o).invs := forall_noReads fuel hpred hg (log_noReads fuel p st st1 L (fun o => (h o).2.2.1) hl)
  have hs2 : sat st2.constraints ρ := fun c hc => hs3 c (log_mono fuel q st2 st3 L' hn2 hl' c hc)
  have hs1 : sat st1.constraints ρ := fun c hc => hs2 c (hs0 hc)
  have hst := log_steady fuel ρ p st st1 [] L h.steady hp hl hs1
  obtain ⟨hm2, hk2⟩ := (forall_kept fuel hpred hst.maps hne hg).2 hs2
  obtain ⟨hm3, hk3, hread⟩ := kept_log fuel ρ obj pred r q st2 st3 L' hm2 hk2 hq hput hl' hs3
  refine ⟨fun e he ho => hread e he ho hr, fun hw => ?_⟩
  cases hem : isEmpty (lengthOf (st3.maps obj) (st3.maps obj).layers) with
  | true => rw [(forall_empty fuel hem hg').1]; rfl
  | false =>
    obtain ⟨-, -, -, -, -, -, -, -, h9⟩ := forall_info fuel hpred' (hm3 obj).caches hem hg'
    exact (h9 ρ hs).2 (fun i hi hp' => hw _ _ (hk3.items hr i hi hp')) (fun hp' => hw _ _ (hk3.unknown hr hp'))

/-- A state with the symbols 0 and 1 and nothing known of any map. -/
def blank : State := ⟨[], 2, fun _ => ⟨[], [], .const 0, ⟨.const 0, .const 0, .lit false⟩, []⟩⟩

theorem newArray_blank : ∃ st b, newArray 1 blank 0 (.const 10) = some st ∧ st.next = 4 ∧ st.constraints = [b] ∧
    st.maps 0 = ⟨[.iff (.rel (fun x y => decide (x < y)) .key (.lift (.const 10))) .present], [], .const 10, ⟨.var 2, .var 3, .var 2⟩, []⟩ ∧
    ∀ ρ, b.den ρ = (decide (ρ.bv 2 < 10) == ρ.bl 2) := by
  obtain ⟨b, hb, hd⟩ := applyInv_sem (get 1) (State.setMap { blank with next := blank.next + 2 } 0 ⟨[], [], .const 10, ⟨.var blank.next, .var (blank.next + 1), .var blank.next⟩, []⟩)
    (.iff (.rel (fun x y => decide (x < y)) .key (.lift (.const 10))) .present)
    ((State.setMap { blank with next := blank.next + 2 } 0 ⟨[], [], .const 10, ⟨.var blank.next, .var (blank.next + 1), .var blank.next⟩, []⟩).maps 0).unknown (.lit true)
    ⟨0, ⟨trivial, trivial⟩, trivial⟩
  refine ⟨State.setMap (State.add (State.setMap { blank with next := blank.next + 2 } 0 ⟨[], [], .const 10, ⟨.var blank.next, .var (blank.next + 1), .var blank.next⟩, []⟩) [b]) 0
    ⟨[.iff (.rel (fun x y => decide (x < y)) .key (.lift (.const 10))) .present], [], .const 10, ⟨.var 2, .var 3, .var 2⟩, []⟩, b, ?_, rfl, rfl, rfl, hd⟩
  unfold newArray addInv
  simp only [hb]
  rfl

/-- C75 is false for `forall`, as /repo/tool/tests/test.py:200-207 suspects. Of an array of 10 elements one asks whether all
values are below X and whether all are above Y. An assignment with X < Y makes both true and satisfies the constraints,
although no contents of the array fit. -/
theorem C75_forall_spurious : ∃ (st st1 st2 : State) (ρ : Env) (r1 r2 : B), newArray 1 blank 0 (.const 10) = some st ∧
    forall_ 1 st 0 (.rel (fun x y => decide (x < y)) .value (.lift (.var 0))) = some (r1, st1) ∧
    forall_ 1 st1 0 (.rel (fun x y => decide (y < x)) .value (.lift (.var 1))) = some (r2, st2) ∧
    sat st2.constraints ρ ∧ ρ.bv 0 < ρ.bv 1 ∧ r1.den ρ = true ∧ r2.den ρ = true ∧
    ∀ c, StartsAs ρ (st.maps 0) c → ¬((∀ k, (c k).2 = true → (c k).1 < ρ.bv 0) ∧ ∀ k, (c k).2 = true → ρ.bv 1 < (c k).1) := by
  obtain ⟨st, b, h0, hn0, hc0, hm0, hb⟩ := newArray_blank
  obtain ⟨st1, h1, hn1, -, hm1, hc1⟩ := forall_fresh 1 st 0 (pred := .rel (fun x y => decide (x < y)) .value (.lift (.var 0)))
    ⟨trivial, by show 0 < st.next; omega⟩ (by rw [hm0]) (by rw [hm0]) (by rw [hm0, hn0]; simp [Item.within, E.within, B.within]) (by rw [hm0]; rfl)
  obtain ⟨st2, h2, hn2, -, hm2, hc2⟩ := forall_fresh 1 st1 0 (pred := .rel (fun x y => decide (y < x)) .value (.lift (.var 1)))
    ⟨trivial, by show 1 < st1.next; omega⟩ (by rw [hm1, hm0]) (by rw [hm1, hm0]) (by rw [hm1, hm0, hn1, hn0]; simp [Item.within, E.within, B.within]) (by rw [hm1, hm0]; rfl)
  refine ⟨st, st1, st2, ⟨fun i => if i = 0 then 1 else if i = 1 then 2 else 20, fun i => i == 4 || i == 5⟩, _, _, h0, h1, h2, ?_, by simp, ?_, ?_, ?_⟩
  · rw [hc2, hc1, hc0, hm1, hm0, hn1, hn0]
    refine ⟨⟨?_, ?_⟩, ?_⟩
    · intro c hc
      rw [List.mem_singleton.1 hc, hb]; rfl
    · simp [B.den]
    · simp [B.den]
  · show ((st.next == 4 || st.next == 5) : Bool) = true; rw [hn0]; rfl
  · show ((st1.next == 4 || st1.next == 5) : Bool) = true; rw [hn1, hn0]; rfl
  · rintro c hc ⟨h3, h4⟩
    have h5 := hc.invs (.iff (.rel (fun x y => decide (x < y)) .key (.lift (.const 10))) .present) (by rw [hm0]; simp) 0
    have h6 : (c 0).2 = true := by
      have : (decide (0 < 10) == (c 0).2) = true := h5
      simpa using this
    have h7 := h3 0 h6
    have h8 := h4 0 h6
    simp at h7 h8
    omega

theorem log_run (fuel : Nat) : ∀ (p : Prog) (st st' : State) (L : List Entry), p.log fuel st = some (st', L) → p.run fuel st = some st' := by
  intro p
  induction p with
  | done => intro st st' L h; simp only [Prog.log, Option.some.injEq, Prod.mk.injEq] at h; rw [← h.1]; rfl
  | get obj key k ih =>
    intro st st' L h
    unfold Prog.log at h
    unfold Prog.run
    split at h
    · simp at h
    · rename_i r st1 hg
      rw [Option.map_eq_some_iff] at h
      obtain ⟨x, hx, e⟩ := h
      obtain ⟨rfl, -⟩ := Prod.mk.inj e
      simp only [hg]; exact ih _ _ _ _ _ hx
  | length obj k ih => intro st st' L h; exact ih _ st st' L h
  | set obj key value k ih =>
    intro st st' L h
    unfold Prog.log at h
    unfold Prog.run
    split at h
    · simp at h
    · rename_i hg
      simp only [hg]; exact ih _ _ _ h
  | remove obj key k ih =>
    intro st st' L h
    unfold Prog.log at h
    unfold Prog.run
    split at h
    · simp at h
    · rename_i hg
      simp only [hg]; exact ih _ _ _ h
  | assume c k ih => intro st st' L h; exact ih _ st' L h

/-- `C75_possible_partial` applies to a program that reads a key and then sets it, with an assignment under which the key was present. -/
example : ∃ (st' : State) (ρ : Env) (p : Prog), Fresh ρ start ∧ (∀ o, Fillable ρ (start.maps o)) ∧ p.Plain 1 ρ start ∧ p.run 1 start = some st' ∧
    sat st'.constraints ρ ∧ p ≠ .done := by
  obtain ⟨st', L, ρ, h1, h2, h3, h4, -⟩ := plain_sample
  exact ⟨st', ρ, _, h1, fun o => (C75_new_fillable 1 ρ start start o).2.2, h2, log_run _ _ _ _ _ h3, h4, by simp⟩

/-- The theorems on `forall` apply to a program that reads a key, finds it present, asks whether all values are 9, reads another key, and
asks whether all values are at least 9. -/
example : ∃ (st1 st2 st3 st4 : State) (L L' : List Entry) (ρ : Env) (r r' : B), Fresh ρ start ∧
    (Prog.get 0 (.var 0) fun _ _ => .done).Plain 1 ρ start ∧ (Prog.get 0 (.var 0) fun _ _ => .done).log 1 start = some (st1, L) ∧
    isEmpty (lengthOf (st1.maps 0) (st1.maps 0).layers) = false ∧
    forall_ 0 st1 0 (.rel (fun x y => x == y) .value (.lift (.const 9))) = some (r, st2) ∧
    (Prog.get 0 (.var 1) fun _ _ => .done).Plain 1 ρ st2 ∧ (Prog.get 0 (.var 1) fun _ _ => .done).log 1 st2 = some (st3, L') ∧
    forall_ 0 st3 0 (.rel (fun x y => decide (y ≤ x)) .value (.lift (.const 9))) = some (r', st4) ∧ sat st4.constraints ρ ∧ r.den ρ = true ∧
    (∃ e ∈ L, e.obj = 0 ∧ e.ver = (st1.maps 0).version ∧ e.present.den ρ = true) ∧ ∃ e ∈ L', e.obj = 0 := by
  have hA := start_world9 1 3
  have hx : exactMatch start.constraints (.var 0) [⟨.var 2, .var 3, .var 2⟩] (.lit true) = none :=
    exactMatch_none (ρ := env9 1 3) hA.sat (by simp) (by simp [E.den, env9])
  obtain ⟨x1, st1, ρ1, hg1, hr1⟩ := get_read 0 hA 0 none (key := .var 0) (hint := none) (cond := .lit true) (by simp [start, E.within]) (by simp) trivial
    (hA.maps 0).base (by simp)
  rw [Nat.zero_add] at hg1
  have hl1 : (st1.maps 0).layers = [] := by
    have := flattens_le (hr1.layers 0)
    exact List.eq_nil_of_length_eq_zero (by rw [this]; rfl)
  have hc1 : st1.contentAt (fun _ => world9) ρ1 0 none = world9 := by unfold State.contentAt; simp only [hl1]; rfl
  have hall : ∀ (f : Nat → Nat → Bool), f 9 9 = true → ∀ ρ k v, world9 k = (v, true) → (IB.rel f .value (.lift (.const 9))).sem noMaps ρ k v true = true := by
    intro f hf ρ k v hk
    unfold world9 at hk
    split at hk
    · simp only [Prod.mk.injEq] at hk; rw [← hk.1]; exact hf
    · simp at hk
  obtain ⟨r, st2, ρ2, hf2, ha2, hd2, hn2, hr2, hl2⟩ := forall_core 0 hr1.describes 0 (pred := .rel (fun x y => x == y) .value (.lift (.const 9)))
    ⟨trivial, trivial⟩ (.inl fun k v => by rw [hc1]; exact hall _ rfl ρ1 k v)
  have hrt : r.den ρ2 = true := hr2.2 fun k v => by rw [hc1]; exact hall _ rfl ρ1 k v
  have hl2' : (st2.maps 0).layers = [] := List.eq_nil_of_length_eq_zero (by rw [flattens_le (hl2 0), hl1]; rfl)
  have hn1 : 5 ≤ st1.next := hr1.next
  obtain ⟨x3, st3, ρ3, hg3, hr3⟩ := get_read 0 hd2 0 none (key := .var 1) (hint := none) (cond := .lit true) (show 1 < st2.next by omega) (by simp) trivial
    (by rw [hl2']; have := (hd2.maps 0).base; rwa [hl2'] at this) (by simp)
  rw [Nat.zero_add] at hg3
  have hl3 : (st3.maps 0).layers = [] := List.eq_nil_of_length_eq_zero (by rw [flattens_le (hr3.layers 0), hl2']; rfl)
  have hc3 : st3.contentAt (fun _ => world9) ρ3 0 none = world9 := by unfold State.contentAt; simp only [hl3]; rfl
  obtain ⟨r', st4, ρ4, hf4, ha4, hd4, hn4, -⟩ := forall_core 0 hr3.describes 0 (pred := .rel (fun x y => decide (y ≤ x)) .value (.lift (.const 9)))
    ⟨trivial, trivial⟩ (.inl fun k v => by rw [hc3]; exact hall _ rfl ρ3 k v)
  have hn3 : st2.next ≤ st3.next := hr3.next
  have a04 : Agree 5 (env9 1 3) ρ4 := ((hr1.agree.trans ha2 hn1).trans hr3.agree (hn1.trans hn2)).trans ha4 (hn1.trans (hn2.trans hn3))
  have a24 : Agree st2.next ρ2 ρ4 := hr3.agree.trans ha4 hn3
  have a14 : Agree st1.next ρ1 ρ4 := ha2.trans a24 hn2
  have hem : isEmpty (lengthOf (st1.maps 0) (st1.maps 0).layers) = false := by
    rw [hl1]; show isEmpty (st1.maps 0).baseLength = false; rw [hr1.lengths 0]; rfl
  obtain ⟨-, -, i3, -, -, i6, -, i8, -⟩ := forall_info 0 (pred := .rel (fun x y => x == y) .value (.lift (.const 9))) ⟨0, trivial, trivial⟩ (hr1.describes.maps 0).caches hem hf2
  have hu2 : (st2.maps 0).unknown = ⟨.var 2, .var 3, .var 2⟩ := by rw [i6, hr1.unknown 0]; rfl
  have hrp : (iimplies (.lift r) (iimplies .present (.rel (fun x y => x == y) .value (.lift (.const 9))))).pure st2.next :=
    (hd2.maps 0).within.invs _ (by rw [i8]; exact List.mem_append_right _ (List.mem_singleton.2 rfl))
  have hrw : r.within st2.next := hrp.1
  refine ⟨st1, st2, st3, st4, [⟨0, 0, .var 4, .var 0, x1.1, x1.2⟩], [⟨0, (st2.maps 0).version, lengthOf (st2.maps 0) (st2.maps 0).layers, .var 1, x3.1, x3.2⟩], ρ4, r, r',
    fresh_start ρ4 (by rw [← (a04 4 (by omega)).1]; simp [env9]), ⟨⟨hx, by simp [start, items]⟩, fun _ _ _ => trivial⟩, ?_, ?_, hf2, ⟨⟨?_, ?_⟩, fun _ _ _ => trivial⟩, ?_, hf4, hd4.sat, ?_,
    ⟨_, List.mem_singleton.2 rfl, rfl, by simp [MapS.version, hl1], ?_⟩, ⟨_, List.mem_singleton.2 rfl, rfl⟩⟩
  · unfold Prog.log
    simp only [hg1]
    rfl
  · exact hem
  · rw [hu2]
    refine exactMatch_none (ρ := ρ4) (fun c hc => ?_) (by simp) ?_
    · obtain ⟨g1, -⟩ := get_cons 0 (fun i hi => ⟨_, (hd2.maps 0).within.invs i hi⟩) hg3
      exact hd4.sat c (forall_mono 0 (pred := .rel (fun x y => decide (y ≤ x)) .value (.lift (.const 9))) ⟨0, trivial, trivial⟩ hf4 c (g1 c hc))
    · simp only [List.mem_singleton, forall_eq, E.den]
      intro _
      rw [← (a04 1 (by omega)).1, ← (a04 2 (by omega)).1]; simp [env9]
  · rw [hl2', i3]
    rcases hr1.base 0 with e | ⟨-, i, -, e⟩ <;> rw [e] <;> simp [start, items]
  · unfold Prog.log
    simp only [hg3]
    rfl
  · rw [← B.den_congr a24 _ hrw]; exact hrt
  · show x1.2.den ρ4 = true
    rw [← B.den_congr a14 _ hr1.within.2, hr1.present rfl]; rfl

end Verif.Props
