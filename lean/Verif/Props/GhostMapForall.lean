/- Property C22: `forall` over a ghost map. -/
import Verif.Props.GhostMapWrong

set_option autoImplicit false

namespace Verif.Tool.GhostMap

mutual
theorem freezeE_pure (st : State) {n : Nat} : ∀ e : IE, e.pure n → freezeE st e = e
  | .key, _ => rfl
  | .value, _ => rfl
  | .lift _, _ => rfl
  | .op1 f a, h => by simp only [freezeE]; rw [freezeE_pure st a h]
  | .op2 f a b, h => by simp only [freezeE]; rw [freezeE_pure st a h.1, freezeE_pure st b h.2]
  | .ite c t e, h => by simp only [freezeE]; rw [freezeB_pure st c h.1, freezeE_pure st t h.2.1, freezeE_pure st e h.2.2]
theorem freezeB_pure (st : State) {n : Nat} : ∀ e : IB, e.pure n → freezeB st e = e
  | .present, _ => rfl
  | .lift _, _ => rfl
  | .not a, h => by simp only [freezeB]; rw [freezeB_pure st a h]
  | .and a b, h => by simp only [freezeB]; rw [freezeB_pure st a h.1, freezeB_pure st b h.2]
  | .or a b, h => by simp only [freezeB]; rw [freezeB_pure st a h.1, freezeB_pure st b h.2]
  | .iff a b, h => by simp only [freezeB]; rw [freezeB_pure st a h.1, freezeB_pure st b h.2]
  | .rel r a b, h => by simp only [freezeB]; rw [freezeE_pure st a h.1, freezeE_pure st b h.2]
end

theorem applyAll_pure (fuel : Nat) (st : State) {n : Nat} {pred : IB} (hp : pred.pure n) : ∀ l : List Item, (∀ i ∈ l, i.within n) →
    ∃ bs, applyAll fuel pred st l = some (bs, st) ∧ (∀ b ∈ bs, b.within n) ∧
      ∀ ρ, ((∀ b ∈ bs, b.den ρ = true) ↔ ∀ i ∈ l, pred.sem noMaps ρ (i.key.den ρ) (i.value.den ρ) (i.present.den ρ) = true)
  | [], _ => ⟨[], rfl, by simp, by simp⟩
  | i :: l, h => by
    obtain ⟨r, h1, h2, h3⟩ := evalB_pure (get fuel) i (.and i.present (.lit true)) st (h i (by simp)) (Nat.le_refl n) pred hp
    obtain ⟨bs, g1, g2, g3⟩ := applyAll_pure fuel st hp l fun j hj => h j (by simp [hj])
    refine ⟨r :: bs, by simp [applyAll, applyInv, h1, g1], ?_, fun ρ => ?_⟩
    · intro b hb
      rcases List.mem_cons.1 hb with rfl | hb
      · exact h2
      · exact g2 b hb
    · simp only [List.forall_mem_cons, g3 ρ, h3 ρ]

/-- The items of the newest version. -/
noncomputable def State.items (st : State) (obj : Nat) : List Item := GhostMap.items (st.maps obj).base (st.maps obj).layers

/-- `forall` under an assignment where a violation, if there is one, is seen by a known item or by the unknown item. -/
theorem forall_core (fuel : Nat) {st : State} {W : Nat → Contents} {σ : Env} (h : Describes st W σ) (obj : Nat) {pred : IB} (hp : pred.pure st.next)
    (hseen : (∀ k v, st.contentAt W σ obj none k = (v, true) → pred.sem noMaps σ k v true = true) ∨
      (∃ i ∈ st.items obj, i.present.den σ = true ∧ pred.sem noMaps σ (i.key.den σ) (i.value.den σ) true = false) ∨
      ((∀ i ∈ st.items obj, i.key.den σ ≠ (st.maps obj).unknown.key.den σ) ∧ (st.maps obj).unknown.present.den σ = true ∧
        pred.sem noMaps σ ((st.maps obj).unknown.key.den σ) ((st.maps obj).unknown.value.den σ) true = false)) :
    ∃ r st' σ', forall_ fuel st obj pred = some (r, st') ∧ Agree st.next σ σ' ∧ Describes st' W σ' ∧ st.next ≤ st'.next ∧
      (r.den σ' = true ↔ ∀ k v, st.contentAt W σ obj none k = (v, true) → pred.sem noMaps σ k v true = true) ∧
      (∀ o, SameLayers (st'.maps o).layers (st.maps o).layers) := by
  classical
  have hm := h.maps obj
  set m := st.maps obj with hmd
  have hpp : (iimplies .present pred).pure st.next := ⟨trivial, hp⟩
  have hfz : freezeB st (iimplies .present pred) = iimplies .present pred := freezeB_pure st _ hpp
  have hsem : ∀ ρ k v p, (iimplies .present pred).sem noMaps ρ k v p = true ↔ (p = true → pred.sem noMaps ρ k v p = true) := by
    intro ρ k v p
    cases p <;> simp [iimplies, IB.sem]
  have hcont : st.contentAt W σ obj none = content σ (W obj) m.layers := rfl
  rw [hcont] at hseen ⊢
  unfold forall_
  rw [hfz]
  simp only [← hmd]
  split
  · -- an empty map
    rename_i hemp
    have hlen := isEmpty_eq hemp σ
    obtain ⟨S, hS, hcard, -⟩ := hm.length 0
    simp only [List.drop_zero] at hS hcard
    rw [hlen] at hcard
    have hSe : S = ∅ := Finset.card_eq_zero.1 hcard.symm
    refine ⟨_, _, σ, rfl, Agree.refl _ _, h, Nat.le_refl _, ⟨fun _ k v hk => ?_, fun _ => rfl⟩, fun _ => rfl⟩
    have := (hS k).2 (by rw [hk])
    rw [hSe] at this; simp at this
  · -- the known items
    have hce := known_eq m.base m.layers hm.caches
    set st1 := st.setMap obj (m.setLower 0 (known m.base m.layers).2) with hst1
    have hm1 : MapOk st.next σ (W obj) (m.setLower 0 (known m.base m.layers).2) := hm.setLower hce.2.1 (by rw [List.drop_zero]; exact hce.2.2)
    have hd1 : Describes st1 W σ := h.setMap hm1
    have hiw : ∀ i ∈ GhostMap.items m.base m.layers, i.within st.next := items_below hm.within.base fun l hl => (hm.within.layers l hl).2
    obtain ⟨bs, hbs, hbsw, hbsd⟩ := applyAll_pure fuel st1 hpp (known m.base m.layers).1 (by rw [hce.1]; exact hiw)
    rw [hbs]
    simp only
    -- the length
    have hmap1 : st1.maps obj = m.setLower 0 (known m.base m.layers).2 := setMap_same _ _ _
    have hsl1 : SameLayers (st1.maps obj).layers m.layers := by
      rw [hmap1]; exact SameLayers.setLower (ls := m.layers) (d := 0) (by rw [List.drop_zero]; exact hce.2.2)
    have hm1' := hd1.maps obj
    have hce1 := known_eq (st1.maps obj).base (st1.maps obj).layers hm1'.caches
    have ho1 : (overfullCheck st1 obj 0).1.within st.next ∧ (overfullCheck st1 obj 0).1.den σ = true := by
      unfold overfullCheck
      simp only [List.drop_zero]
      rw [hce1.1]
      refine ⟨notOverfull_below (lengthOf_within hm1'.within 0) (items_below hm1'.within.base fun l hl => (hm1'.within.layers l hl).2), ?_⟩
      exact notOverfull_holds (hm1'.length 0) (items_ok hm1'.distinct hm1'.base)
    set o := overfullCheck st1 obj 0 with hod
    have ho2 : o.2 = st1.setMap obj ((st1.maps obj).setLower 0 (known (st1.maps obj).base (st1.maps obj).layers).2) := by
      rw [hod]; unfold overfullCheck; simp only [List.drop_zero]
    have hd2 : Describes o.2 W σ := by
      rw [ho2]; exact hd1.setMap (hm1'.setLower hce1.2.1 (by rw [List.drop_zero]; exact hce1.2.2))
    have hn2 : o.2.next = st.next := by rw [ho2]; rfl
    have hmap2 : (o.2.maps obj).base = m.base ∧ (o.2.maps obj).unknown = m.unknown ∧ (o.2.maps obj).invs = m.invs ∧
        (o.2.maps obj).baseLength = m.baseLength ∧ SameLayers (o.2.maps obj).layers m.layers := by
      rw [ho2, setMap_same]
      have hs : SameLayers ((st1.maps obj).setLower 0 (known (st1.maps obj).base (st1.maps obj).layers).2).layers (st1.maps obj).layers :=
        SameLayers.setLower (ls := (st1.maps obj).layers) (d := 0) (by rw [List.drop_zero]; exact hce1.2.2)
      refine ⟨?_, ?_, ?_, ?_, hs.trans hsl1⟩ <;> (show _ = _; rw [MapS.setLower, hmap1]; rfl)
    -- the unknown item
    obtain ⟨u, hu1, hu2, hu3⟩ := evalB_pure (get fuel) m.unknown (.and m.unknown.present (.lit true)) o.2 hm.within.unknown (Nat.le_refl _) _ hpp
    have hu1' : applyInv (get fuel) o.2 (iimplies .present pred) m.unknown (.lit true) = some (u, o.2) := hu1
    rw [hu1']
    simp only
    -- the result
    set T : Bool := decide (∀ k v, content σ (W obj) m.layers k = (v, true) → pred.sem noMaps σ k v true = true) with hT
    set σ' := σ.assign st.next 0 T with hσ'
    have ha : Agree st.next σ σ' := agree_assign _ _ _ _
    have hres : (B.var o.2.next).den σ' = T := by rw [hn2]; simp [B.den, hσ', Env.assign]
    have hd3 : Describes { o.2 with next := o.2.next + 1 } W σ' := hd2.fresh (Nat.le_succ _) (by rw [hn2]; exact ha)
    have hitemsok := items_ok hm.distinct hm.base
    have hunkc : content σ (W obj) m.layers (m.unknown.key.den σ) = (m.unknown.value.den σ, m.unknown.present.den σ) := by
      rw [content_untouched hm.unknownKey]; exact hm.unknown
    set c : B := .iff (.var o.2.next) (.and (andAll bs) (implies o.1 (implies (isUnknown m.unknown.key (known m.base m.layers).1) u))) with hcd
    have hcw : c.within (o.2.next + 1) := by
      rw [hn2]
      refine ⟨by show o.2.next < _; rw [hn2]; exact Nat.lt_succ_self _, below_andAll _ fun b hb => B.within_mono (Nat.le_succ _) _ (hbsw b hb),
        B.within_mono (Nat.le_succ _) _ ho1.1, below_andAll _ ?_, B.within_mono (Nat.le_succ _) _ hu2⟩
      intro b hb
      obtain ⟨i, hi, rfl⟩ := List.mem_map.1 hb
      rw [hce.1] at hi
      exact ⟨E.within_mono (Nat.le_succ _) _ hm.within.unknown.1, E.within_mono (Nat.le_succ _) _ (hiw i hi).1⟩
    have hrhs : (B.and (andAll bs) (implies o.1 (implies (isUnknown m.unknown.key (known m.base m.layers).1) u))).den σ = T := by
      have hAll : (andAll bs).den σ = true ↔ ∀ i ∈ GhostMap.items m.base m.layers, i.present.den σ = true →
          pred.sem noMaps σ (i.key.den σ) (i.value.den σ) true = true := by
        rw [den_andAll, List.all_eq_true, hbsd σ, hce.1]
        constructor
        · intro hh i hi hpi
          have := (hsem σ _ _ _).1 (hh i hi) hpi
          rw [hpi] at this; exact this
        · intro hh i hi
          rw [hsem]
          intro hpi
          rw [hpi]; exact hh i hi hpi
      have hUnk : (implies o.1 (implies (isUnknown m.unknown.key (known m.base m.layers).1) u)).den σ = true ↔
          ((∀ i ∈ GhostMap.items m.base m.layers, i.key.den σ ≠ m.unknown.key.den σ) → m.unknown.present.den σ = true →
            pred.sem noMaps σ (m.unknown.key.den σ) (m.unknown.value.den σ) true = true) := by
        rw [den_implies, den_implies, hu3 σ, hsem, isUnknown, den_andAll, List.all_map, List.all_eq_true, hce.1]
        constructor
        · intro hh hne hpu
          have := hh ho1.2 (fun i hi => by simpa [B.den, den_eq] using fun e => hne i hi e.symm) hpu
          rw [hpu] at this; exact this
        · intro hh _ hne hpu
          rw [hpu]
          exact hh (fun i hi e => by simpa [B.den, den_eq, e] using hne i hi) hpu
      rw [Bool.eq_iff_iff]
      simp only [B.den, Bool.and_eq_true, hT, decide_eq_true_eq]
      constructor
      · rintro ⟨h1, h2⟩
        rcases hseen with hs | ⟨i, hi, hpi, hv⟩ | ⟨hne, hpu, hv⟩
        · exact hs
        · rw [hAll.1 h1 i hi hpi] at hv; simp at hv
        · rw [hUnk.1 h2 hne hpu] at hv; simp at hv
      · intro hall
        refine ⟨hAll.2 fun i hi hpi => hall _ _ ?_, hUnk.2 fun _ hpu => hall _ _ ?_⟩
        · rw [hitemsok i hi, hpi]
        · rw [hunkc, hpu]
    have hrhs' : (B.and (andAll bs) (implies o.1 (implies (isUnknown m.unknown.key (known m.base m.layers).1) u))).den σ' = T := by
      rw [← hrhs]
      refine (B.den_congr ha _ ?_).symm
      refine ⟨below_andAll _ hbsw, ho1.1, below_andAll _ ?_, hu2⟩
      intro b hb
      obtain ⟨i, hi, rfl⟩ := List.mem_map.1 hb
      rw [hce.1] at hi
      exact ⟨hm.within.unknown.1, (hiw i hi).1⟩
    have hcden : c.den σ' = true := by
      show ((B.var o.2.next).den σ' == (B.and (andAll bs) (implies o.1 (implies (isUnknown m.unknown.key (known m.base m.layers).1) u))).den σ') = true
      rw [hres, hrhs']; simp
    have hd4 : Describes ({ o.2 with next := o.2.next + 1 }.add [c]) W σ' := hd3.add (by simpa using ⟨hcw, hcden⟩)
    -- the new invariant
    set inv : IB := iimplies (.lift (.var o.2.next)) (iimplies .present pred) with hinv
    have hinvp : inv.pure (st.next + 1) := ⟨by show o.2.next < _; rw [hn2]; exact Nat.lt_succ_self _, IB.pure_mono (Nat.le_succ _) _ hpp⟩
    have hinvs : ∀ ρ k v p, inv.sem noMaps ρ k v p = true ↔ ((B.var o.2.next).den ρ = true → p = true → pred.sem noMaps ρ k v p = true) := by
      intro ρ k v p
      rw [hinv]
      show (!((B.var o.2.next).den ρ) || (iimplies .present pred).sem noMaps ρ k v p) = true ↔ _
      rw [Bool.or_eq_true, hsem]
      cases (B.var o.2.next).den ρ <;> simp
    set st4 := { o.2 with next := o.2.next + 1 }.add [c] with hst4
    have hn4 : st4.next = st.next + 1 := by rw [hst4]; show o.2.next + 1 = _; rw [hn2]
    have hm4 : st4.maps obj = o.2.maps obj := rfl
    obtain ⟨b, hb1, hb2, hb3⟩ := evalB_pure (get fuel) (st4.maps obj).unknown (.and (st4.maps obj).unknown.present (.lit true)) st4
      (n := st.next + 1) (m := st.next + 1) (by rw [hm4, hmap2.2.1]; exact (hm.within.mono (Nat.le_succ _)).unknown) (Nat.le_refl _) inv hinvp
    have hb1' : applyInv (get fuel) st4 inv (st4.maps obj).unknown (.lit true) = some (b, st4) := hb1
    have hTp : T = true → ∀ k v, content σ (W obj) m.layers k = (v, true) → pred.sem noMaps σ' k v true = true := by
      intro ht k v hk
      rw [← IB.sem_congr ha _ _ _ _ hp]
      exact of_decide_eq_true ht k v hk
    have hbden : b.den σ' = true := by
      rw [hb3, hinvs, hm4, hmap2.2.1, hres]
      intro ht hpu
      rw [hpu]
      refine hTp ht _ _ ?_
      rw [← E.den_congr ha _ hm.within.unknown.1, ← E.den_congr ha _ hm.within.unknown.2.1, hunkc]
      rw [← B.den_congr ha _ hm.within.unknown.2.2] at hpu
      rw [hpu]
    have hd5 : Describes (st4.add [b]) W σ' := hd4.add (by simpa using ⟨by rw [hn4]; exact hb2, hbden⟩)
    have hm5 := hd5.maps obj
    have hm5' : (st4.add [b]).maps obj = o.2.maps obj := rfl
    have hn5 : (st4.add [b]).next = st.next + 1 := hn4
    rw [hm5', hn5] at hm5
    have hm6 : MapOk (st4.add [b]).next σ' (W obj) { o.2.maps obj with invs := (o.2.maps obj).invs ++ [inv] } := by
      rw [hn5]
      refine ⟨⟨hm5.within.base, hm5.within.length, hm5.within.unknown, hm5.within.layers, ?_⟩, hm5.caches, hm5.distinct, hm5.base, hm5.unknownKey, hm5.unknown, hm5.touched, ?_, ?_⟩
      · intro x hx
        rcases List.mem_append.1 hx with hx | hx
        · exact hm5.within.invs x hx
        · rw [List.mem_singleton.1 hx]; exact hinvp
      · intro x hx k hk
        rcases List.mem_append.1 hx with hx | hx
        · exact hm5.invs x hx k hk
        · rw [List.mem_singleton.1 hx, hinvs, hres]
          intro ht hpk
          by_cases hun : Untouched σ' (o.2.maps obj).layers k
          · rw [hpk]
            refine hTp ht _ _ ?_
            have hun' : Untouched σ m.layers k := by
              rw [Untouched.congr ha fun l hl => (hm.within.layers l hl).2]
              exact hmap2.2.2.2.2.symm.untouched hun
            rw [content_untouched hun', ← hpk]
          · simp only [Untouched, not_forall, not_not] at hun
            obtain ⟨l, hl, i, hi, e⟩ := hun
            rcases hm5.touched l hl i hi with ⟨b', hb', e'⟩ | e'
            · exact absurd (e'.trans e) (hk b' hb')
            · rw [e, hpk] at e'; simp at e'
      · intro d
        have := hm5.length d
        have e : lengthOf { o.2.maps obj with invs := (o.2.maps obj).invs ++ [inv] } ((o.2.maps obj).layers.drop d) = lengthOf (o.2.maps obj) ((o.2.maps obj).layers.drop d) := by
          cases (o.2.maps obj).layers.drop d <;> rfl
        show LenOk σ' (content σ' (W obj) ((o.2.maps obj).layers.drop d)) (lengthOf _ ((o.2.maps obj).layers.drop d))
        rw [e]; exact this
    refine ⟨.var o.2.next, _, σ', by unfold addInv; rw [hb1']; rfl, ha, hd5.setMap hm6, ?_, ?_, ?_⟩
    · show st.next ≤ (st4.add [b]).next
      rw [hn5]; exact Nat.le_succ _
    · rw [hres, hT, decide_eq_true_eq]
    · intro x
      by_cases hx : x = obj
      · subst hx; rw [setMap_same]; exact hmap2.2.2.2.2
      · rw [setMap_other _ hx]
        show SameLayers (o.2.maps x).layers _
        rw [ho2, setMap_other _ hx, hst1, setMap_other _ hx]
        exact rfl

end Verif.Tool.GhostMap

namespace Verif.Tool.GhostMap

/-- What `forall` does on a map of which nothing is known yet. -/
theorem forall_fresh (fuel : Nat) (st : State) (obj : Nat) {pred : IB} (hp : pred.pure st.next) (hb : (st.maps obj).base = []) (hl : (st.maps obj).layers = [])
    (hu : (st.maps obj).unknown.within st.next) (he : isEmpty (st.maps obj).baseLength = false) :
    ∃ st', forall_ fuel st obj pred = some (.var st.next, st') ∧ st'.next = st.next + 1 ∧
      (∀ o, o ≠ obj → st'.maps o = st.maps o) ∧
      st'.maps obj = { st.maps obj with invs := (st.maps obj).invs ++ [iimplies (.lift (.var st.next)) (iimplies .present pred)] } ∧
      (∀ ρ, sat st'.constraints ρ ↔ sat st.constraints ρ ∧ (ρ.bl st.next = true ↔ ((st.maps obj).unknown.present.den ρ = true →
        pred.sem noMaps ρ ((st.maps obj).unknown.key.den ρ) ((st.maps obj).unknown.value.den ρ) true = true))) := by
  have hpp : (iimplies .present pred).pure st.next := ⟨trivial, hp⟩
  have hfz : freezeB st (iimplies .present pred) = iimplies .present pred := freezeB_pure st _ hpp
  have hsem : ∀ ρ k v p, (iimplies .present pred).sem noMaps ρ k v p = true ↔ (p = true → pred.sem noMaps ρ k v true = true) := by
    intro ρ k v p
    cases p <;> simp [iimplies, IB.sem]
  unfold forall_
  rw [hfz]
  simp only [hl, lengthOf, he, Bool.false_eq_true, if_false, known, hb, applyAll]
  have hsm : ∀ m : MapS, m.layers = [] → m.setLower 0 [] = m := by
    intro m hm; cases m; simp only at hm; subst hm; rfl
  have hss : st.setMap obj (st.maps obj) = st := by
    cases st; simp only [State.setMap, State.mk.injEq, true_and]
    funext o; split
    · rename_i h; rw [h]
    · rfl
  rw [hsm _ hl, hss]
  have ho : (overfullCheck st obj 0).2 = st ∧ ∀ ρ, (overfullCheck st obj 0).1.den ρ = true := by
    unfold overfullCheck
    simp only [hl, hb, List.drop_nil, known, lengthOf]
    rw [hsm _ hl, hss]
    refine ⟨rfl, fun ρ => ?_⟩
    unfold notOverfull
    split
    · rfl
    · simp [knownLength, E.le, B.den, E.den]
  rw [ho.1]
  obtain ⟨u, hu1, hu2, hu3⟩ := evalB_pure (get fuel) (st.maps obj).unknown (.and (st.maps obj).unknown.present (.lit true)) st hu (Nat.le_refl _) _ hpp
  have hu1' : applyInv (get fuel) st (iimplies .present pred) (st.maps obj).unknown (.lit true) = some (u, st) := hu1
  rw [hu1']
  simp only
  set st4 := { st with next := st.next + 1 }.add [.iff (.var st.next) (.and (andAll []) (implies (overfullCheck st obj 0).1 (implies (isUnknown (st.maps obj).unknown.key []) u)))] with hst4
  have hinvp : (iimplies (.lift (.var st.next)) (iimplies .present pred)).pure (st.next + 1) := ⟨Nat.lt_succ_self _, IB.pure_mono (Nat.le_succ _) _ hpp⟩
  have hu' : (st.maps obj).unknown.within (st.next + 1) := ⟨E.within_mono (Nat.le_succ _) _ hu.1, E.within_mono (Nat.le_succ _) _ hu.2.1, B.within_mono (Nat.le_succ _) _ hu.2.2⟩
  obtain ⟨b, hb1, hb2, hb3⟩ := evalB_pure (get fuel) (st.maps obj).unknown (.and (st.maps obj).unknown.present (.lit true)) st4 hu' (Nat.le_refl _) _ hinvp
  have hb1' : applyInv (get fuel) st4 (iimplies (.lift (.var st.next)) (iimplies .present pred)) (st4.maps obj).unknown (.lit true) = some (b, st4) := hb1
  refine ⟨State.setMap (st4.add [b]) obj { (st4.add [b]).maps obj with invs := ((st4.add [b]).maps obj).invs ++ [iimplies (.lift (.var st.next)) (iimplies .present pred)] },
    by unfold addInv; rw [hb1'], rfl, fun o ho' => setMap_other _ ho' _, ?_, fun ρ => ?_⟩
  · rw [setMap_same, ← hb, ← hl]; rfl
  have hc : (State.setMap (st4.add [b]) obj { (st4.add [b]).maps obj with invs := ((st4.add [b]).maps obj).invs ++ [iimplies (.lift (.var st.next)) (iimplies .present pred)] }).constraints =
      b :: .iff (.var st.next) (.and (andAll []) (implies (overfullCheck st obj 0).1 (implies (isUnknown (st.maps obj).unknown.key []) u))) :: st.constraints := rfl
  have hbv : b.den ρ = (!(ρ.bl st.next) || u.den ρ) := by
    rw [hb3, hu3]; rfl
  have huv : u.den ρ = true ↔ ((st.maps obj).unknown.present.den ρ = true → pred.sem noMaps ρ ((st.maps obj).unknown.key.den ρ) ((st.maps obj).unknown.value.den ρ) true = true) := by
    rw [hu3, hsem]
  rw [hc, ← huv]
  have hi : (implies (overfullCheck st obj 0).1 (implies (isUnknown (st.maps obj).unknown.key []) u)).den ρ = u.den ρ := by
    simp [implies, B.den, ho.2 ρ, isUnknown, andAll]
  simp only [sat, List.forall_mem_cons, hbv]
  constructor
  · rintro ⟨-, h2, h3⟩
    refine ⟨h3, ?_⟩
    simp only [B.den, andAll, hi, Bool.true_and, beq_iff_eq] at h2
    rw [h2]
  · rintro ⟨h3, h4⟩
    have h5 : ρ.bl st.next = u.den ρ := by rw [Bool.eq_iff_iff]; exact h4
    refine ⟨by rw [h5]; cases u.den ρ <;> rfl, ?_, h3⟩
    simp only [B.den, andAll, hi, Bool.true_and, beq_iff_eq, h5]

end Verif.Tool.GhostMap

namespace Verif.Props

open Verif.Tool.GhostMap

/-- Every key of which nothing is known could be the unknown item's: there is an assignment with that key
that describes the same world, with the same values for the symbols in `V` and the same meaning of the
predicate and of the map. -/
def UnknownIsFree (V : Nat → Prop) (st : State) (W : Nat → Contents) (ρ : Env) (obj : Nat) (pred : IB) : Prop :=
  ∀ k, (∀ i ∈ st.items obj, i.key.den ρ ≠ k) → ∃ ρk, (∀ x, V x → ρ.bv x = ρk.bv x ∧ ρ.bl x = ρk.bl x) ∧ Describes st W ρk ∧
    (∀ i ∈ st.items obj, i.key.den ρk = i.key.den ρ) ∧
    st.contentAt W ρk obj none = st.contentAt W ρ obj none ∧ (st.maps obj).unknown.key.den ρk = k ∧
    ∀ k v, pred.sem noMaps ρk k v true = pred.sem noMaps ρ k v true

/-- C22, for predicates that read no map. `forall` returns a Boolean, and the state still describes the world
with that Boolean being true exactly when every item of the map satisfies the predicate; so both branches
on it are covered, and in the branch where it is false there is a violating item. It is assumed that the
unknown item can stand for every key of which nothing is known, as it can after `new` and reads. What is
missing: after one `forall` was assumed false the unknown item is no longer free, and a second one is wrong
(`C22_two_foralls_wrong`); predicates that read other maps are in `C22_cross_partial`. -/
theorem C22_forall_partial (fuel : Nat) (st : State) (W : Nat → Contents) (ρ : Env) (h : Describes st W ρ) (obj : Nat) (pred : IB)
    (hp : pred.pure st.next) (V : Nat → Prop) (hV : ∀ x, V x → x < st.next) (hfree : UnknownIsFree V st W ρ obj pred) :
    ∃ r st' ρ', forall_ fuel st obj pred = some (r, st') ∧ (∀ x, V x → ρ.bv x = ρ'.bv x ∧ ρ.bl x = ρ'.bl x) ∧ Describes st' W ρ' ∧
      (r.den ρ' = true ↔ ∀ k v, st.contentAt W ρ obj none k = (v, true) → pred.sem noMaps ρ k v true = true) ∧
      st'.contentAt W ρ' obj none = st.contentAt W ρ obj none := by
  classical
  by_cases hall : ∀ k v, st.contentAt W ρ obj none k = (v, true) → pred.sem noMaps ρ k v true = true
  · obtain ⟨r, st', ρ', h1, h2, h3, -, h4, h5⟩ := forall_core fuel h obj hp (.inl hall)
    exact ⟨r, st', ρ', h1, fun x hx => h2 x (hV x hx), h3, h4, contentAt_congr h h2 (h5 obj)⟩
  · have hall' := hall
    simp only [not_forall, Bool.not_eq_true] at hall
    obtain ⟨k, v, hk, hv⟩ := hall
    have hm := h.maps obj
    have hok := items_ok hm.distinct hm.base
    by_cases hkn : ∀ i ∈ st.items obj, i.key.den ρ ≠ k
    · obtain ⟨ρk, hVk, hdk, hik, hck, huk, hsk⟩ := hfree k hkn
      have hmk := hdk.maps obj
      have hun : st.contentAt W ρk obj none k = ((st.maps obj).unknown.value.den ρk, (st.maps obj).unknown.present.den ρk) := by
        rw [← huk]
        exact (content_untouched hmk.unknownKey).trans hmk.unknown
      rw [hck, hk] at hun
      simp only [Prod.mk.injEq] at hun
      obtain ⟨r, st', ρ', h1, h2, h3, -, h4, h5⟩ := forall_core fuel hdk obj hp
        (.inr (.inr ⟨fun i hi => by rw [hik i hi, huk]; exact hkn i hi, hun.2.symm, by rw [huk, ← hun.1, hsk]; exact hv⟩))
      refine ⟨r, st', ρ', h1, fun x hx => ?_, h3, ?_, ?_⟩
      · exact ⟨(hVk x hx).1.trans (h2 x (hV x hx)).1, (hVk x hx).2.trans (h2 x (hV x hx)).2⟩
      · rw [h4, hck]; simp only [hsk]
      · rw [← hck]; exact contentAt_congr hdk h2 (h5 obj)
    · simp only [not_forall, not_not] at hkn
      obtain ⟨i, hi, e⟩ := hkn
      have := hok i hi
      unfold Item.ok at this
      rw [e] at this
      have hk' : content ρ (W obj) (st.maps obj).layers k = (v, true) := hk
      rw [hk'] at this
      simp only [Prod.mk.injEq] at this
      obtain ⟨r, st', ρ', h1, h2, h3, -, h4, h5⟩ := forall_core fuel h obj hp (.inr (.inl ⟨i, hi, this.2.symm, by rw [e, ← this.1]; exact hv⟩))
      exact ⟨r, st', ρ', h1, fun x hx => h2 x (hV x hx), h3, h4, contentAt_congr h h2 (h5 obj)⟩

/-- The unknown item of a new map is free: its symbols occur nowhere else. -/
example : UnknownIsFree (fun x => x < 2) start (fun _ => world9) (env9 1 3) 0 (.rel (fun x y => x != y) .value (.lift (.const 9))) := by
  intro k _
  refine ⟨⟨fun i => if i = 2 then k else if i = 3 then (world9 k).1 else (env9 1 3).bv i, fun i => if i = 2 then (world9 k).2 else false⟩, ?_, ?_, ?_, rfl, rfl, fun _ _ => rfl⟩
  · intro x hx
    have h2 : x ≠ 2 := by omega
    have h3 : x ≠ 3 := by omega
    simp [h2, h3, env9]
  · refine start_describes {1} (fun k => ?_) rfl (by simp) rfl
    unfold world9
    by_cases h : k = 1 <;> simp [h]
  · intro i hi; simp [State.items, start, items] at hi

/-- The world where every map holds 0 ↦ 5 and 1 ↦ 6. -/
def world56 : Contents := fun k => if k = 0 then (5, true) else if k = 1 then (6, true) else (0, false)

/-- C22 is false in general. Of a map that holds the values 5 and 6, one asks whether all values differ from 5
and then whether all values differ from 6. Both answers are no, but no assignment that satisfies the
constraints makes both results false: the verifier takes for granted that one of the two is true. -/
theorem C22_two_foralls_wrong : ∃ (st st1 st2 : State) (W : Nat → Contents) (ρ : Env) (p1 p2 : IB) (r1 r2 : B),
    Describes st W ρ ∧ forall_ 1 st 0 p1 = some (r1, st1) ∧ forall_ 1 st1 0 p2 = some (r2, st2) ∧
    (∃ k v, W 0 k = (v, true) ∧ ∀ ρ', p1.sem noMaps ρ' k v true = false) ∧ (∃ k v, W 0 k = (v, true) ∧ ∀ ρ', p2.sem noMaps ρ' k v true = false) ∧
    (∀ ρ', sat st2.constraints ρ' → r1.den ρ' = true ∨ r2.den ρ' = true) ∧ ∃ ρ', sat st2.constraints ρ' := by
  have hd : Describes start (fun _ => world56) ⟨fun i => if i = 2 then 7 else if i = 4 then 2 else 0, fun _ => false⟩ := by
    refine start_describes {0, 1} (fun k => ?_) rfl (by simp) rfl
    unfold world56
    by_cases h : k = 0
    · simp [h]
    · by_cases h' : k = 1 <;> simp [h, h']
  obtain ⟨st1, h1, hn1, -, hm1, hc1⟩ := forall_fresh 1 start 0 (pred := .rel (fun x y => x != y) .value (.lift (.const 5))) ⟨trivial, trivial⟩ rfl rfl
    (by simp [start, Item.within, E.within, B.within]) rfl
  obtain ⟨st2, h2, hn2, -, hm2, hc2⟩ := forall_fresh 1 st1 0 (pred := .rel (fun x y => x != y) .value (.lift (.const 6))) ⟨trivial, trivial⟩ (by rw [hm1]; rfl) (by rw [hm1]; rfl)
    (by rw [hm1, hn1]; simp [start, Item.within, E.within, B.within]) (by rw [hm1]; rfl)
  refine ⟨start, st1, st2, _, _, _, _, _, _, hd, h1, h2, ⟨0, 5, rfl, fun _ => rfl⟩, ⟨1, 6, rfl, fun _ => rfl⟩, fun ρ' hs => ?_,
    ⟨fun i => if i = 2 then 7 else if i = 4 then 2 else 0, fun i => i == 5 || i == 6⟩, ?_⟩
  · obtain ⟨h3, h4⟩ := (hc2 ρ').1 hs
    obtain ⟨-, h5⟩ := (hc1 ρ').1 h3
    show ρ'.bl start.next = true ∨ ρ'.bl st1.next = true
    rw [h4, h5, hm1]
    simp only [start, IB.sem, IE.sem, B.den, E.den]
    by_cases h : ρ'.bl 2 = true <;> by_cases h' : ρ'.bv 3 = 5 <;> simp [h, h']
  · rw [hc2, hc1]
    refine ⟨⟨by simp [sat, start], ?_⟩, ?_⟩
    · simp [start, B.den]
    · rw [hn1, hm1]; simp [start, B.den]

end Verif.Props
