/- Property C22: `forall` with predicates that read other maps. -/
import Verif.Props.GhostMapForall
import Verif.Props.GhostMapReads

set_option autoImplicit false

namespace Verif.Tool.GhostMap

mutual
theorem freezeE_reads (st : State) {n : Nat} {L : Nat → Bool} : ∀ e : IE, e.reads n L → (freezeE st e).reads n L
  | .key, _ => trivial
  | .value, _ => trivial
  | .lift _, h => h
  | .op1 _ a, h => freezeE_reads st a h
  | .op2 _ a b, h => ⟨freezeE_reads st a h.1, freezeE_reads st b h.2⟩
  | .ite c t e, h => ⟨freezeB_reads st c h.1, freezeE_reads st t h.2.1, freezeE_reads st e h.2.2⟩
  | .mapGet _ k _, h => ⟨h.1, freezeE_reads st k h.2⟩
theorem freezeB_reads (st : State) {n : Nat} {L : Nat → Bool} : ∀ e : IB, e.reads n L → (freezeB st e).reads n L
  | .present, _ => trivial
  | .lift _, h => h
  | .not a, h => freezeB_reads st a h
  | .and a b, h => ⟨freezeB_reads st a h.1, freezeB_reads st b h.2⟩
  | .or a b, h => ⟨freezeB_reads st a h.1, freezeB_reads st b h.2⟩
  | .iff a b, h => ⟨freezeB_reads st a h.1, freezeB_reads st b h.2⟩
  | .rel _ a b, h => ⟨freezeE_reads st a h.1, freezeE_reads st b h.2⟩
  | .mapHas _ k _, h => ⟨h.1, freezeE_reads st k h.2⟩
  | .mapHasValue .., h => h.elim
end

mutual
theorem freezeE_sem (st : State) (W : Nat → Contents) (ρ : Env) (k v : Nat) (p : Bool) :
    ∀ e : IE, (freezeE st e).sem (fun o _ => W o) ρ k v p = e.sem (fun o _ => W o) ρ k v p
  | .key => rfl
  | .value => rfl
  | .lift _ => rfl
  | .op1 _ a => by simp only [freezeE, IE.sem, freezeE_sem st W ρ k v p a]
  | .op2 _ a b => by simp only [freezeE, IE.sem, freezeE_sem st W ρ k v p a, freezeE_sem st W ρ k v p b]
  | .ite c t e => by simp only [freezeE, IE.sem, freezeB_sem st W ρ k v p c, freezeE_sem st W ρ k v p t, freezeE_sem st W ρ k v p e]
  | .mapGet _ a _ => by simp only [freezeE, IE.sem, freezeE_sem st W ρ k v p a]
theorem freezeB_sem (st : State) (W : Nat → Contents) (ρ : Env) (k v : Nat) (p : Bool) :
    ∀ e : IB, (freezeB st e).sem (fun o _ => W o) ρ k v p = e.sem (fun o _ => W o) ρ k v p
  | .present => rfl
  | .lift _ => rfl
  | .not a => by simp only [freezeB, IB.sem, freezeB_sem st W ρ k v p a]
  | .and a b => by simp only [freezeB, IB.sem, freezeB_sem st W ρ k v p a, freezeB_sem st W ρ k v p b]
  | .or a b => by simp only [freezeB, IB.sem, freezeB_sem st W ρ k v p a, freezeB_sem st W ρ k v p b]
  | .iff a b => by simp only [freezeB, IB.sem, freezeB_sem st W ρ k v p a, freezeB_sem st W ρ k v p b]
  | .rel _ a b => by simp only [freezeB, IB.sem, freezeE_sem st W ρ k v p a, freezeE_sem st W ρ k v p b]
  | .mapHas _ a _ => by simp only [freezeB, IB.sem, freezeE_sem st W ρ k v p a]
  | .mapHasValue _ a b _ => by simp only [freezeB, IB.sem, freezeE_sem st W ρ k v p a, freezeE_sem st W ρ k v p b]
end

theorem applyAll_cross (L : Nat → Bool) (fuel : Nat) (W : Nat → Contents) {n : Nat} {pred : IB} (hp : Guarded n L pred) : ∀ (l : List Item) (st : State) (ρ : Env),
    n ≤ st.next → DescribesCross L st W ρ → (∀ i ∈ l, i.within st.next) → ∃ bs st' ρ', applyAll (fuel + 1) pred st l = some (bs, st') ∧ Ext L st W ρ st' ρ' ∧
      (∀ b ∈ bs, b.within st'.next) ∧ ((∀ b ∈ bs, b.den ρ' = true) ↔ ∀ i ∈ l, pred.semOf W ρ i = true)
  | [], st, ρ, _, h, _ => ⟨[], st, ρ, rfl, .refl h, by simp, by simp⟩
  | i :: l, st, ρ, hn, h, hi => by
    obtain ⟨r, st1, ρ1, h1, h2, h3, h4⟩ := evalB_guarded L fuel W i hp st ρ hn h (hi i (by simp))
    obtain ⟨bs, st2, ρ2, g1, g2, g3, g4⟩ := applyAll_cross L fuel W hp l st1 ρ1 (hn.trans h2.next) h2.cross fun j hj => Item.within_mono h2.next (hi j (by simp [hj]))
    refine ⟨r :: bs, st2, ρ2, by simp [applyAll, applyInv, h1, g1], h2.trans g2, ?_, ?_⟩
    · intro b hb
      rcases List.mem_cons.1 hb with rfl | hb
      · exact B.within_mono g2.next _ h3
      · exact g3 b hb
    · simp only [List.forall_mem_cons, g4, ← B.den_congr g2.agree _ h3, h4]
      refine and_congr_right fun _ => forall₂_congr fun j hj => ?_
      rw [hp.semOf_shift h2.agree (hi j (by simp [hj])) hn]

/-- An invariant that holds can be added. -/
theorem DescribesCross.addInv {L : Nat → Bool} {st : State} {W : Nat → Contents} {ρ : Env} (h : DescribesCross L st W ρ) {obj : Nat} (hL : L obj = false) {inv : IB}
    (hg : Guarded st.next L inv)
    (hs : ∀ k, (∀ b ∈ (st.maps obj).base, b.key.den ρ ≠ k) → inv.sem (fun o' _ => W o') ρ k (W obj k).1 (W obj k).2 = true)
    (hs' : (st.maps obj).layers = [] → ∀ k, inv.sem (fun o' _ => W o') ρ k (W obj k).1 (W obj k).2 = true) :
    DescribesCross L (st.setMap obj { st.maps obj with invs := (st.maps obj).invs ++ [inv] }) W ρ := by
  refine ⟨?_, fun o ho x hx => ?_, fun o ho => ?_, fun o ho x hx k hk => ?_, fun o ho => ?_⟩
  · rw [plain_setMap_not hL]; exact h.plain.setMap (h.mapOk hL)
  · by_cases e : o = obj
    · subst e; rw [setMap_same] at hx
      rcases List.mem_append.1 hx with hx | hx
      · exact h.claims o ho x hx
      · rw [List.mem_singleton.1 hx]; exact .guarded hg
    · rw [setMap_other _ e] at hx; exact h.claims o ho x hx
  · by_cases e : o = obj
    · subst e; rw [setMap_same]
      refine (h.hinted o ho).imp (fun hh x hx => ?_) fun hh => ⟨hh.1, fun x hx k => ?_⟩
      · rcases List.mem_append.1 hx with hx | hx
        · exact hh x hx
        · rw [List.mem_singleton.1 hx]; exact hg
      · rcases List.mem_append.1 hx with hx | hx
        · exact hh.2 x hx k
        · rw [List.mem_singleton.1 hx]; exact hs' hh.1 k
    · rw [setMap_other _ e]; exact h.hinted o ho
  · by_cases e : o = obj
    · subst e; rw [setMap_same] at hx hk
      rcases List.mem_append.1 hx with hx | hx
      · exact h.invs o ho x hx k hk
      · rw [List.mem_singleton.1 hx]; exact hs k hk
    · rw [setMap_other _ e] at hx hk; exact h.invs o ho x hx k hk
  · have e : o ≠ obj := fun e => by rw [e, hL] at ho; cases ho
    rw [setMap_other _ e]; exact h.read o ho

/-- `forall` under an assignment where a violation, if there is one, is seen by a known item or by the unknown item. -/
theorem forall_cross_core (L : Nat → Bool) (fuel : Nat) {st : State} {W : Nat → Contents} {σ : Env} (h : DescribesCross L st W σ) (obj : Nat) (hL : L obj = false) {pred : IB}
    (hp : pred.reads st.next L)
    (hseen : (∀ k v, st.contentAt W σ obj none k = (v, true) → pred.sem (fun o _ => W o) σ k v true = true) ∨
      (∃ i ∈ st.items obj, i.present.den σ = true ∧ pred.sem (fun o _ => W o) σ (i.key.den σ) (i.value.den σ) true = false) ∨
      ((∀ i ∈ st.items obj, i.key.den σ ≠ (st.maps obj).unknown.key.den σ) ∧ (st.maps obj).unknown.present.den σ = true ∧
        pred.sem (fun o _ => W o) σ ((st.maps obj).unknown.key.den σ) ((st.maps obj).unknown.value.den σ) true = false)) :
    ∃ r st' σ', forall_ (fuel + 1) st obj pred = some (r, st') ∧ Agree st.next σ σ' ∧ DescribesCross L st' W σ' ∧ st.next ≤ st'.next ∧
      (r.den σ' = true ↔ ∀ k v, st.contentAt W σ obj none k = (v, true) → pred.sem (fun o _ => W o) σ k v true = true) ∧
      (∀ o, SameLayers (st'.maps o).layers (st.maps o).layers) := by
  classical
  have hm := h.mapOk hL
  set m := st.maps obj with hmd
  -- the frozen predicate
  set P : IB := freezeB st pred with hP
  have hPr : P.reads st.next L := freezeB_reads st pred hp
  have hfz : freezeB st (iimplies .present pred) = iimplies .present P := rfl
  have hg : Guarded st.next L (iimplies .present P) := .present hPr
  have hsem : ∀ ρ k v p, (iimplies .present P).sem (fun o _ => W o) ρ k v p = true ↔ (p = true → pred.sem (fun o _ => W o) ρ k v p = true) := by
    intro ρ k v p
    rw [← freezeB_sem st W ρ k v p pred]
    cases p <;> simp [iimplies, IB.sem, hP]
  have hcont : st.contentAt W σ obj none = content σ (W obj) m.layers := rfl
  rw [hcont] at hseen ⊢
  have hread : ∀ {st' : State} {σ' : Env}, DescribesCross L st' W σ' → (∀ o, L o = false → SameLayers (st'.maps o).layers (st.maps o).layers) →
      ∀ o, SameLayers (st'.maps o).layers (st.maps o).layers := by
    intro st' σ' hd hs o
    cases hLo : L o with
    | false => exact hs o hLo
    | true => rw [hd.read o hLo, h.read o hLo]; exact rfl
  unfold forall_
  rw [hfz]
  simp only [← hmd]
  split
  · -- an empty map
    rename_i hemp
    have hlen := isEmpty_eq hemp σ
    obtain ⟨S, hS, hcard, -⟩ := hm.length 0
    simp only [List.drop_zero] at hS hcard
    rw [lengthOf_noInvs, hlen] at hcard
    have hSe : S = ∅ := Finset.card_eq_zero.1 hcard.symm
    refine ⟨_, _, σ, rfl, Agree.refl _ _, h, Nat.le_refl _, ⟨fun _ k v hk => ?_, fun _ => rfl⟩, fun _ => rfl⟩
    have := (hS k).2 (by rw [hk])
    rw [hSe] at this; simp at this
  · -- the known items
    have hce := known_eq m.base m.layers hm.caches
    set st1 := st.setMap obj (m.setLower 0 (known m.base m.layers).2) with hst1
    have hsl1 : SameLayers (m.setLower 0 (known m.base m.layers).2).layers m.layers := SameLayers.setLower (ls := m.layers) (d := 0) hce.2.2
    have hd1 : DescribesCross L st1 W σ := h.setMap hL (hm.setLower (d := 0) hce.2.1 hce.2.2) rfl (fun b hb => hb) (.inr hsl1)
    have hiw : ∀ i ∈ GhostMap.items m.base m.layers, i.within st.next := items_below hm.within.base fun l hl => (hm.within.layers l hl).2
    obtain ⟨bs, st2, σ2, hbs, hx2, hbsw, hbsd⟩ := applyAll_cross L fuel W hg (known m.base m.layers).1 st1 σ (Nat.le_refl _) hd1 (by rw [hce.1]; exact hiw)
    rw [hbs]
    simp only
    have ha2 : Agree st.next σ σ2 := hx2.agree
    have hn2 : st.next ≤ st2.next := hx2.next
    have hst2 : st2.maps obj = m.setLower 0 (known m.base m.layers).2 := (hx2.maps obj hL).trans (setMap_same _ _ _)
    -- the length
    have hm2 := hx2.cross.mapOk hL
    have hce2 := known_eq (st2.maps obj).base (st2.maps obj).layers hm2.caches
    have ho1 : (overfullCheck st2 obj 0).1.within st2.next ∧ (overfullCheck st2 obj 0).1.den σ2 = true := by
      unfold overfullCheck
      simp only [List.drop_zero]
      rw [hce2.1, ← lengthOf_noInvs]
      refine ⟨notOverfull_below (lengthOf_within hm2.within 0) (items_below hm2.within.base fun l hl => (hm2.within.layers l hl).2), ?_⟩
      exact notOverfull_holds (hm2.length 0) (items_ok hm2.distinct hm2.base)
    set o := overfullCheck st2 obj 0 with hod
    have ho2 : o.2 = st2.setMap obj ((st2.maps obj).setLower 0 (known (st2.maps obj).base (st2.maps obj).layers).2) := by
      rw [hod]; unfold overfullCheck; simp only [List.drop_zero]
    have hsl2 : SameLayers ((st2.maps obj).setLower 0 (known (st2.maps obj).base (st2.maps obj).layers).2).layers (st2.maps obj).layers :=
      SameLayers.setLower (ls := (st2.maps obj).layers) (d := 0) hce2.2.2
    have hd2 : DescribesCross L o.2 W σ2 := by
      rw [ho2]; exact hx2.cross.setMap hL (hm2.setLower (d := 0) hce2.2.1 hce2.2.2) rfl (fun b hb => hb) (.inr hsl2)
    have hno : o.2.next = st2.next := by rw [ho2]; rfl
    have hmo : (o.2.maps obj).base = m.base ∧ (o.2.maps obj).unknown = m.unknown ∧ SameLayers (o.2.maps obj).layers m.layers := by
      rw [ho2, setMap_same]
      refine ⟨?_, ?_, hsl2.trans (by rw [hst2]; exact hsl1)⟩ <;> (show _ = _; rw [MapS.setLower, hst2]; rfl)
    -- the unknown item
    have huw : m.unknown.within o.2.next := by rw [hno]; exact Item.within_mono hn2 hm.within.unknown
    obtain ⟨u, st3, σ3, hu1, hx3, hu2, hu3⟩ := evalB_guarded L fuel W m.unknown hg o.2 σ2 (by rw [hno]; exact hn2) hd2 huw
    have hu1' : applyInv (get (fuel + 1)) o.2 (iimplies .present P) m.unknown (.lit true) = some (u, st3) := hu1
    rw [hu1']
    simp only
    have hn23 : st2.next ≤ st3.next := hno ▸ hx3.next
    have ha23 : Agree st2.next σ2 σ3 := by have := hx3.agree; rw [hno] at this; exact this
    have ha3 : Agree st.next σ σ3 := ha2.trans ha23 hn2
    have hn3 : st.next ≤ st3.next := hn2.trans hn23
    have hm3 : st3.maps obj = o.2.maps obj := hx3.maps obj hL
    have hu3' : u.den σ3 = true ↔ (m.unknown.present.den σ = true → pred.sem (fun o _ => W o) σ (m.unknown.key.den σ) (m.unknown.value.den σ) true = true) := by
      rw [hu3, hg.semOf_shift ha2 hm.within.unknown (Nat.le_refl _)]
      show (iimplies .present P).sem _ _ _ _ _ = true ↔ _
      rw [hsem]
      refine forall_congr' fun hpu => ?_
      rw [hpu]
    -- the result
    set T : Bool := decide (∀ k v, content σ (W obj) m.layers k = (v, true) → pred.sem (fun o _ => W o) σ k v true = true) with hT
    set σ' := σ3.assign st3.next 0 T with hσ'
    have ha' : Agree st3.next σ3 σ' := agree_assign _ _ _ _
    have ha : Agree st.next σ σ' := ha3.trans ha' hn3
    have hres : (B.var st3.next).den σ' = T := by simp [B.den, hσ', Env.assign]
    have hd4 : DescribesCross L { st3 with next := st3.next + 1 } W σ' := hx3.cross.fresh (Nat.le_succ _) ha'
    have hitemsok := items_ok hm.distinct hm.base
    have hunkc : content σ (W obj) m.layers (m.unknown.key.den σ) = (m.unknown.value.den σ, m.unknown.present.den σ) :=
      (content_untouched hm.unknownKey).trans hm.unknown
    set rhs : B := .and (andAll bs) (implies o.1 (implies (isUnknown m.unknown.key (known m.base m.layers).1) u)) with hrd
    have hiuw : (isUnknown m.unknown.key (known m.base m.layers).1).within st.next := by
      refine below_andAll _ fun b hb => ?_
      obtain ⟨i, hi, rfl⟩ := List.mem_map.1 hb
      rw [hce.1] at hi
      exact ⟨hm.within.unknown.1, (hiw i hi).1⟩
    have hrw : rhs.within st3.next :=
      ⟨below_andAll _ fun b hb => B.within_mono hn23 _ (hbsw b hb), B.within_mono hn23 _ ho1.1, B.within_mono hn3 _ hiuw, hu2⟩
    have hrhs : rhs.den σ3 = T := by
      have hAll : (andAll bs).den σ3 = true ↔ ∀ i ∈ GhostMap.items m.base m.layers, i.present.den σ = true →
          pred.sem (fun o _ => W o) σ (i.key.den σ) (i.value.den σ) true = true := by
        rw [← B.den_congr ha23 _ (below_andAll _ hbsw), den_andAll, List.all_eq_true, hbsd, hce.1]
        refine forall₂_congr fun i _ => ?_
        show (iimplies .present P).sem _ _ _ _ _ = true ↔ _
        rw [hsem]
        refine forall_congr' fun hpi => ?_
        rw [hpi]
      have hUnk : (implies o.1 (implies (isUnknown m.unknown.key (known m.base m.layers).1) u)).den σ3 = true ↔
          ((∀ i ∈ GhostMap.items m.base m.layers, i.key.den σ ≠ m.unknown.key.den σ) → m.unknown.present.den σ = true →
            pred.sem (fun o _ => W o) σ (m.unknown.key.den σ) (m.unknown.value.den σ) true = true) := by
        rw [den_implies, den_implies, hu3', ← B.den_congr ha23 _ ho1.1, ← B.den_congr ha3 _ hiuw, isUnknown, den_andAll, List.all_map, List.all_eq_true, hce.1]
        constructor
        · intro hh hne hpu
          exact hh ho1.2 (fun i hi => by simpa [B.den, den_eq] using fun e => hne i hi e.symm) hpu
        · intro hh _ hne hpu
          exact hh (fun i hi e => by simpa [B.den, den_eq, e] using hne i hi) hpu
      rw [Bool.eq_iff_iff]
      show ((andAll bs).den σ3 && (implies o.1 (implies (isUnknown m.unknown.key (known m.base m.layers).1) u)).den σ3) = true ↔ _
      rw [Bool.and_eq_true, hT, decide_eq_true_eq]
      constructor
      · rintro ⟨h1, h2⟩
        rcases hseen with hs | ⟨i, hi, hpi, hv⟩ | ⟨hne, hpu, hv⟩
        · exact hs
        · rw [hAll.1 h1 i hi hpi] at hv; simp at hv
        · rw [hUnk.1 h2 hne hpu] at hv; simp at hv
      · intro hall
        refine ⟨hAll.2 fun i hi hpi => hall _ _ ?_, hUnk.2 fun _ hpu => hall _ _ ?_⟩
        · rw [show content σ (W obj) m.layers (i.key.den σ) = _ from hitemsok i hi, hpi]
        · rw [hunkc, hpu]
    set c : B := .iff (.var st3.next) rhs with hcd
    have hcden : c.den σ' = true := by
      show ((B.var st3.next).den σ' == rhs.den σ') = true
      rw [hres, ← B.den_congr ha' _ hrw, hrhs]; simp
    set st4 := { st3 with next := st3.next + 1 }.add [c] with hst4
    have hd5 : DescribesCross L st4 W σ' := hd4.add (by simpa using ⟨⟨Nat.lt_succ_self _, B.within_mono (Nat.le_succ _) _ hrw⟩, hcden⟩)
    -- the new invariant
    have hn4 : st.next ≤ st4.next := hn3.trans (Nat.le_succ _)
    set inv : IB := iimplies (.lift (.var st3.next)) (iimplies .present P) with hinv
    have hinvg : Guarded st4.next L inv := .or (.not (.pure (show B.within _ (.var st3.next) from Nat.lt_succ_self _))) (hg.mono hn4)
    have hinvs : ∀ ρ k v p, inv.sem (fun o _ => W o) ρ k v p = true ↔ ((B.var st3.next).den ρ = true → p = true → pred.sem (fun o _ => W o) ρ k v p = true) := by
      intro ρ k v p
      rw [hinv]
      show (!((B.var st3.next).den ρ) || (iimplies .present P).sem (fun o _ => W o) ρ k v p) = true ↔ _
      rw [Bool.or_eq_true, hsem]
      cases (B.var st3.next).den ρ <;> simp
    have hm4 : st4.maps obj = o.2.maps obj := hm3
    have hTp : T = true → ∀ {ρ : Env}, Agree st.next σ ρ → ∀ k v, content σ (W obj) m.layers k = (v, true) → pred.sem (fun o _ => W o) ρ k v true = true := by
      intro ht ρ hρ k v hk
      rw [← IB.sem_shift hρ _ _ _ _ _ hp]
      exact of_decide_eq_true ht k v hk
    have hu4 : (st4.maps obj).unknown = m.unknown := by rw [hm4]; exact hmo.2.1
    obtain ⟨b, st5, σ5, hb1, hx5, hb2, hb3⟩ := evalB_guarded L fuel W (st4.maps obj).unknown hinvg st4 σ' (Nat.le_refl _) hd5
      (by rw [hu4]; exact Item.within_mono hn4 hm.within.unknown)
    have hb1' : applyInv (get (fuel + 1)) st4 inv (st4.maps obj).unknown (.lit true) = some (b, st5) := hb1
    have ha5 : Agree st.next σ σ5 := ha.trans hx5.agree hn4
    have hbden : b.den σ5 = true := by
      rw [hb3, hu4]
      show inv.sem _ _ _ _ _ = true
      rw [hinvs, hres]
      intro ht hpu
      rw [hpu]
      refine hTp ht ha _ _ ?_
      rw [← E.den_congr ha _ hm.within.unknown.1, ← E.den_congr ha _ hm.within.unknown.2.1, hunkc]
      rw [← B.den_congr ha _ hm.within.unknown.2.2] at hpu
      rw [hpu]
    have hd6 : DescribesCross L (st5.add [b]) W σ5 := hx5.cross.add (by simpa using ⟨hb2, hbden⟩)
    have hm5 : st5.maps obj = o.2.maps obj := (hx5.maps obj hL).trans hm4
    have hres5 : (B.var st3.next).den σ5 = T := by rw [← B.den_congr hx5.agree (.var st3.next) (show st3.next < st4.next from Nat.lt_succ_self _), hres]
    have hd7 := hd6.addInv hL (inv := inv) (hinvg.mono hx5.next)
      (by
        intro k hk
        have hk : ∀ b ∈ (st5.maps obj).base, b.key.den σ5 ≠ k := hk
        rw [hinvs, hres5]
        intro ht hpk
        by_cases hun : Untouched σ5 (st5.maps obj).layers k
        · rw [hpk]
          refine hTp ht ha5 _ _ ?_
          have hun' : Untouched σ m.layers k := by
            rw [Untouched.congr ha5 fun l hl => (hm.within.layers l hl).2]
            rw [hm5] at hun
            exact hmo.2.2.symm.untouched hun
          rw [content_untouched hun', ← hpk]
        · simp only [Untouched, not_forall, not_not] at hun
          obtain ⟨l, hl, i, hi, e⟩ := hun
          rcases (hx5.cross.mapOk hL).touched l hl i hi with ⟨b', hb', e'⟩ | e'
          · exact absurd (e'.trans e) (hk b' hb')
          · rw [e, hpk] at e'; simp at e')
      (by
        intro hnil k
        have hnil : (st5.maps obj).layers = [] := hnil
        have hml : m.layers = [] := by
          have := hmo.2.2.symm
          rw [← hm5, hnil] at this
          exact sameLayers_nil_of this
        rw [hinvs, hres5]
        intro ht hpk
        rw [hpk]
        refine hTp ht ha5 _ _ ?_
        rw [hml, ← hpk]; rfl)
    refine ⟨.var st3.next, _, σ5, by unfold addInv; rw [hb1'], ha5, hd7, hn4.trans hx5.next, ?_, hread hd7 fun x hLx => ?_⟩
    · rw [hres5, hT, decide_eq_true_eq]
    · by_cases hx : x = obj
      · subst hx; rw [setMap_same]; show SameLayers (st5.maps x).layers _; rw [hm5]; exact hmo.2.2
      · rw [setMap_other _ hx]
        show SameLayers (st5.maps x).layers _
        rw [hx5.maps x hLx, show st4.maps x = st3.maps x from rfl, hx3.maps x hLx, ho2, setMap_other _ hx, hx2.maps x hLx, hst1, setMap_other _ hx]
        exact rfl

end Verif.Tool.GhostMap

namespace Verif.Props

open Verif.Tool.GhostMap

/-- Every key of which nothing is known could be the unknown item's, as in `UnknownIsFree`, with maps whose invariants read other
maps and a predicate that reads them. -/
def UnknownIsFreeCross (L : Nat → Bool) (V : Nat → Prop) (st : State) (W : Nat → Contents) (ρ : Env) (obj : Nat) (pred : IB) : Prop :=
  ∀ k, (∀ i ∈ st.items obj, i.key.den ρ ≠ k) → ∃ ρk, (∀ x, V x → ρ.bv x = ρk.bv x ∧ ρ.bl x = ρk.bl x) ∧ DescribesCross L st W ρk ∧
    (∀ i ∈ st.items obj, i.key.den ρk = i.key.den ρ) ∧
    st.contentAt W ρk obj none = st.contentAt W ρ obj none ∧ (st.maps obj).unknown.key.den ρk = k ∧
    ∀ k v, pred.sem (fun o _ => W o) ρk k v true = pred.sem (fun o _ => W o) ρ k v true

/-- C22, for predicates that may read other maps. `forall` on a map, with a predicate that asks whether keys are in maps that
were not updated and which values they have there, returns a Boolean, and the state still describes the world with that Boolean
being true exactly when every item of the map satisfies the predicate. The maps may have invariants that read these maps too.
As in `C22_forall_partial`, it is assumed that the unknown item can stand for every key of which nothing is known. What is
missing: predicates with expected values, for which it is false (`C22_hint_unsound`); predicates that read maps that were
updated, or the map itself; and a second `forall` after one that was false (`C22_two_foralls_wrong`). -/
theorem C22_cross_partial (L : Nat → Bool) (fuel : Nat) (st : State) (W : Nat → Contents) (ρ : Env) (h : DescribesCross L st W ρ) (obj : Nat) (hL : L obj = false)
    (pred : IB) (hp : pred.reads st.next L) (V : Nat → Prop) (hV : ∀ x, V x → x < st.next) (hfree : UnknownIsFreeCross L V st W ρ obj pred) :
    ∃ r st' ρ', forall_ (fuel + 1) st obj pred = some (r, st') ∧ (∀ x, V x → ρ.bv x = ρ'.bv x ∧ ρ.bl x = ρ'.bl x) ∧ DescribesCross L st' W ρ' ∧
      (r.den ρ' = true ↔ ∀ k v, st.contentAt W ρ obj none k = (v, true) → pred.sem (fun o _ => W o) ρ k v true = true) ∧
      st'.contentAt W ρ' obj none = st.contentAt W ρ obj none := by
  classical
  by_cases hall : ∀ k v, st.contentAt W ρ obj none k = (v, true) → pred.sem (fun o _ => W o) ρ k v true = true
  · obtain ⟨r, st', ρ', h1, h2, h3, -, h4, h5⟩ := forall_cross_core L fuel h obj hL hp (.inl hall)
    exact ⟨r, st', ρ', h1, fun x hx => h2 x (hV x hx), h3, h4, contentAt_cross h h2 (h5 obj)⟩
  · simp only [not_forall, Bool.not_eq_true] at hall
    obtain ⟨k, v, hk, hv⟩ := hall
    have hm := h.mapOk hL
    have hok := items_ok hm.distinct hm.base
    by_cases hkn : ∀ i ∈ st.items obj, i.key.den ρ ≠ k
    · obtain ⟨ρk, hVk, hdk, hik, hck, huk, hsk⟩ := hfree k hkn
      have hmk := hdk.mapOk hL
      have hun : st.contentAt W ρk obj none k = ((st.maps obj).unknown.value.den ρk, (st.maps obj).unknown.present.den ρk) := by
        rw [← huk]
        exact (content_untouched hmk.unknownKey).trans hmk.unknown
      rw [hck, hk] at hun
      simp only [Prod.mk.injEq] at hun
      obtain ⟨r, st', ρ', h1, h2, h3, -, h4, h5⟩ := forall_cross_core L fuel hdk obj hL hp
        (.inr (.inr ⟨fun i hi => by rw [hik i hi, huk]; exact hkn i hi, hun.2.symm, by rw [huk, ← hun.1, hsk]; exact hv⟩))
      refine ⟨r, st', ρ', h1, fun x hx => ?_, h3, ?_, ?_⟩
      · exact ⟨(hVk x hx).1.trans (h2 x (hV x hx)).1, (hVk x hx).2.trans (h2 x (hV x hx)).2⟩
      · rw [h4, hck]; simp only [hsk]
      · rw [← hck]; exact contentAt_cross hdk h2 (h5 obj)
    · simp only [not_forall, not_not] at hkn
      obtain ⟨i, hi, e⟩ := hkn
      have := hok i hi
      unfold Item.ok at this
      rw [e] at this
      have hk' : content ρ (W obj) (st.maps obj).layers k = (v, true) := hk
      rw [hk'] at this
      simp only [Prod.mk.injEq] at this
      obtain ⟨r, st', ρ', h1, h2, h3, -, h4, h5⟩ := forall_cross_core L fuel h obj hL hp (.inr (.inl ⟨i, hi, this.2.symm, by rw [e, ← this.1]; exact hv⟩))
      exact ⟨r, st', ρ', h1, fun x hx => h2 x (hV x hx), h3, h4, contentAt_cross h h2 (h5 obj)⟩

/-- An assignment for `linkedWorld` where the unknown item of map 0 has the key k. -/
private def freeEnv (v k : Nat) : Env :=
  ⟨fun i => if i = 0 then k else if i = 1 then (linkedWorld v 0 k).1 else if i = 2 then 11 else if i = 4 ∨ i = 5 then 1 else 0, fun i => i == 0 && (linkedWorld v 0 k).2⟩

private theorem free_describes (v k : Nat) : DescribesCross (fun o => o != 0) (linked linkInv) (linkedWorld v) (freeEnv v k) := by
  have h0 : ∀ o, (o != 0) = false → o = 0 := by intro o h; simpa using h
  have hs : ∀ ρ j, linkInv.sem (fun o _ => linkedWorld v o) ρ j (linkedWorld v 0 j).1 (linkedWorld v 0 j).2 = true := by
    intro ρ j; by_cases hj : j = 3 <;> simp [linkInv, iimplies, IB.sem, IE.sem, linkedWorld, hj]
  refine ⟨⟨by simp [sat, linked, State.plain], by simp [linked, State.plain], fun o => ?_⟩, fun o ho i hinv => ?_, fun o ho => .inr ⟨?_, fun i hinv => ?_⟩, fun o ho i hinv j _ => ?_, fun o ho => ?_⟩
  · have key : ∀ (w : Contents) (len : E) (u : Item), u.within 7 → len.within 7 → u.ok (freeEnv v k) w → len.den (freeEnv v k) = 1 → (∀ j, (w j).2 = decide (j = 3)) →
        MapOk 7 (freeEnv v k) w ⟨[], [], len, u, []⟩ := by
      intro w len u hu hl hok hlen hw
      refine ⟨⟨by simp, hl, hu, by simp, by simp⟩, trivial, by simp, by simp [BaseOk], by simp [Untouched], hok, by simp, by simp, fun d => ?_⟩
      simp only [List.drop_nil]
      exact ⟨{3}, fun j => by simp [content, hw], hlen, by simp⟩
    have hp : ∀ o j, (linkedWorld v o j).2 = decide (j = 3) := by
      intro o j; unfold linkedWorld; by_cases h : j = 3 <;> simp [h]
    by_cases ho : o = 0
    · subst ho
      exact key _ _ _ (by simp [linked, Item.within, E.within, B.within]) (by simp [linked, E.within]) (by simp [linked, Item.ok, E.den, B.den, freeEnv]) rfl (hp 0)
    · simp only [linked, State.plain, ho, bne_iff_ne, ne_eq, not_false_eq_true, if_true, if_false]
      exact key _ _ _ (by simp [Item.within, E.within, B.within]) (by simp [E.within]) (by simp [Item.ok, E.den, B.den, freeEnv, linkedWorld]) rfl (hp o)
  · obtain rfl := h0 o ho
    obtain rfl : i = linkInv := by simpa [linked] using hinv
    exact .guarded (.present ⟨rfl, trivial⟩)
  · obtain rfl := h0 o ho; rfl
  · obtain rfl := h0 o ho
    obtain rfl : i = linkInv := by simpa [linked] using hinv
    exact hs _
  · obtain rfl := h0 o ho
    obtain rfl : i = linkInv := by simpa [linked] using hinv
    exact hs _ j
  · have : o ≠ 0 := by simpa using ho
    simp [linked, this]

/-- The predicate that map 1 has the same value for the key. -/
private def sameValue : IB := .and (.mapHas 1 .key none) (.rel (fun x y => x == y) .value (.mapGet 1 .key none))

/-- `C22_cross_partial` applies to two maps of which it is known that every key of map 0 is in map 1, and the question whether
it has the same value there: it has not. -/
example : DescribesCross (fun o => o != 0) (linked linkInv) (linkedWorld 5) (freeEnv 5 10) ∧ sameValue.reads (linked linkInv).next (fun o => o != 0) ∧
    UnknownIsFreeCross (fun o => o != 0) (fun x => x = 4 ∨ x = 5) (linked linkInv) (linkedWorld 5) (freeEnv 5 10) 0 sameValue ∧
    (linked linkInv).contentAt (linkedWorld 5) (freeEnv 5 10) 0 none 3 = (1, true) ∧ sameValue.sem (fun o _ => linkedWorld 5 o) (freeEnv 5 10) 3 1 true = false := by
  refine ⟨free_describes 5 10, ⟨⟨rfl, trivial⟩, trivial, ⟨rfl, trivial⟩⟩, fun k _ => ⟨freeEnv 5 k, ?_, free_describes 5 k, ?_, rfl, rfl, fun _ _ => rfl⟩, rfl, rfl⟩
  · rintro x (rfl | rfl) <;> exact ⟨rfl, rfl⟩
  · intro i hi; simp [State.items, linked, items] at hi

end Verif.Props
