/- Reads and updates of ghost maps whose invariants read other maps. Used by C19 and C20. -/
import Verif.Tool.GhostMapCross
import Verif.Props.GhostMap

set_option autoImplicit false

namespace Verif.Tool.GhostMap

/-! Meaning of invariants that read maps. -/

mutual
theorem IE.reads_mono {n m : Nat} {L : Nat → Bool} (h : n ≤ m) : ∀ e : IE, e.reads n L → e.reads m L
  | .key, _ => trivial
  | .value, _ => trivial
  | .lift e, hb => E.within_mono h e hb
  | .op1 _ a, hb => IE.reads_mono h a hb
  | .op2 _ a b, hb => ⟨IE.reads_mono h a hb.1, IE.reads_mono h b hb.2⟩
  | .ite c t e, hb => ⟨IB.reads_mono h c hb.1, IE.reads_mono h t hb.2.1, IE.reads_mono h e hb.2.2⟩
  | .mapGet _ k _, hb => ⟨hb.1, IE.reads_mono h k hb.2⟩
theorem IB.reads_mono {n m : Nat} {L : Nat → Bool} (h : n ≤ m) : ∀ e : IB, e.reads n L → e.reads m L
  | .present, _ => trivial
  | .lift b, hb => B.within_mono h b hb
  | .not a, hb => IB.reads_mono h a hb
  | .and a b, hb => ⟨IB.reads_mono h a hb.1, IB.reads_mono h b hb.2⟩
  | .or a b, hb => ⟨IB.reads_mono h a hb.1, IB.reads_mono h b hb.2⟩
  | .iff a b, hb => ⟨IB.reads_mono h a hb.1, IB.reads_mono h b hb.2⟩
  | .rel _ a b, hb => ⟨IE.reads_mono h a hb.1, IE.reads_mono h b hb.2⟩
  | .mapHas _ k _, hb => ⟨hb.1, IE.reads_mono h k hb.2⟩
  | .mapHasValue .., hb => hb.elim
end

theorem Guarded.mono {n m : Nat} {L : Nat → Bool} (h : n ≤ m) {inv : IB} (hg : Guarded n L inv) : Guarded m L inv := by
  induction hg with
  | pure hp => exact .pure (IB.pure_mono h _ hp)
  | present hp => exact .present (IB.reads_mono h _ hp)
  | not _ ih => exact .not ih
  | and _ _ ih ih' => exact .and ih ih'
  | or _ _ ih ih' => exact .or ih ih'
  | iff _ _ ih ih' => exact .iff ih ih'

mutual
theorem IE.sem_shift {n : Nat} {L : Nat → Bool} {ρ ρ' : Env} (h : Agree n ρ ρ') (M : Nat → Option Nat → Contents) (k v : Nat) (p : Bool) :
    ∀ e : IE, e.reads n L → e.sem M ρ k v p = e.sem M ρ' k v p
  | .key, _ => rfl
  | .value, _ => rfl
  | .lift e, hb => E.den_congr h e hb
  | .op1 f a, hb => by simp only [IE.sem]; rw [IE.sem_shift h M k v p a hb]
  | .op2 f a b, hb => by simp only [IE.sem]; rw [IE.sem_shift h M k v p a hb.1, IE.sem_shift h M k v p b hb.2]
  | .ite c t e, hb => by
    simp only [IE.sem]; rw [IB.sem_shift h M k v p c hb.1, IE.sem_shift h M k v p t hb.2.1, IE.sem_shift h M k v p e hb.2.2]
  | .mapGet o a ver, hb => by simp only [IE.sem]; rw [IE.sem_shift h M k v p a hb.2]
theorem IB.sem_shift {n : Nat} {L : Nat → Bool} {ρ ρ' : Env} (h : Agree n ρ ρ') (M : Nat → Option Nat → Contents) (k v : Nat) (p : Bool) :
    ∀ e : IB, e.reads n L → e.sem M ρ k v p = e.sem M ρ' k v p
  | .present, _ => rfl
  | .lift b, hb => B.den_congr h b hb
  | .not a, hb => by simp only [IB.sem]; rw [IB.sem_shift h M k v p a hb]
  | .and a b, hb => by simp only [IB.sem]; rw [IB.sem_shift h M k v p a hb.1, IB.sem_shift h M k v p b hb.2]
  | .or a b, hb => by simp only [IB.sem]; rw [IB.sem_shift h M k v p a hb.1, IB.sem_shift h M k v p b hb.2]
  | .iff a b, hb => by simp only [IB.sem]; rw [IB.sem_shift h M k v p a hb.1, IB.sem_shift h M k v p b hb.2]
  | .rel r a b, hb => by simp only [IB.sem]; rw [IE.sem_shift h M k v p a hb.1, IE.sem_shift h M k v p b hb.2]
  | .mapHas o a ver, hb => by simp only [IB.sem]; rw [IE.sem_shift h M k v p a hb.2]
  | .mapHasValue .., hb => hb.elim
end

mutual
theorem IE.sem_pure {n : Nat} (M M' : Nat → Option Nat → Contents) (ρ : Env) (k v : Nat) (p : Bool) :
    ∀ e : IE, e.pure n → e.sem M ρ k v p = e.sem M' ρ k v p
  | .key, _ => rfl
  | .value, _ => rfl
  | .lift _, _ => rfl
  | .op1 f a, hb => by simp only [IE.sem]; rw [IE.sem_pure M M' ρ k v p a hb]
  | .op2 f a b, hb => by simp only [IE.sem]; rw [IE.sem_pure M M' ρ k v p a hb.1, IE.sem_pure M M' ρ k v p b hb.2]
  | .ite c t e, hb => by
    simp only [IE.sem]; rw [IB.sem_pure M M' ρ k v p c hb.1, IE.sem_pure M M' ρ k v p t hb.2.1, IE.sem_pure M M' ρ k v p e hb.2.2]
  | .mapGet .., hb => hb.elim
theorem IB.sem_pure {n : Nat} (M M' : Nat → Option Nat → Contents) (ρ : Env) (k v : Nat) (p : Bool) :
    ∀ e : IB, e.pure n → e.sem M ρ k v p = e.sem M' ρ k v p
  | .present, _ => rfl
  | .lift _, _ => rfl
  | .not a, hb => by simp only [IB.sem]; rw [IB.sem_pure M M' ρ k v p a hb]
  | .and a b, hb => by simp only [IB.sem]; rw [IB.sem_pure M M' ρ k v p a hb.1, IB.sem_pure M M' ρ k v p b hb.2]
  | .or a b, hb => by simp only [IB.sem]; rw [IB.sem_pure M M' ρ k v p a hb.1, IB.sem_pure M M' ρ k v p b hb.2]
  | .iff a b, hb => by simp only [IB.sem]; rw [IB.sem_pure M M' ρ k v p a hb.1, IB.sem_pure M M' ρ k v p b hb.2]
  | .rel r a b, hb => by simp only [IB.sem]; rw [IE.sem_pure M M' ρ k v p a hb.1, IE.sem_pure M M' ρ k v p b hb.2]
  | .mapHas .., hb => hb.elim
  | .mapHasValue .., hb => hb.elim
end

theorem Guarded.sem_shift {n : Nat} {L : Nat → Bool} {ρ ρ' : Env} (h : Agree n ρ ρ') (M : Nat → Option Nat → Contents) (k v : Nat) (p : Bool)
    {inv : IB} (hg : Guarded n L inv) : inv.sem M ρ k v p = inv.sem M ρ' k v p := by
  induction hg with
  | pure hp => rw [IB.sem_pure M noMaps ρ k v p _ hp, IB.sem_pure M noMaps ρ' k v p _ hp, IB.sem_congr h k v p _ hp]
  | present hp => simp only [iimplies, IB.sem]; rw [IB.sem_shift h M k v p _ hp]
  | not _ ih => simp only [IB.sem]; rw [ih]
  | and _ _ ih ih' => simp only [IB.sem]; rw [ih, ih']
  | or _ _ ih ih' => simp only [IB.sem]; rw [ih, ih']
  | iff _ _ ih ih' => simp only [IB.sem]; rw [ih, ih']

theorem Asserts.mono {n m : Nat} {L : Nat → Bool} (h : n ≤ m) {inv : IB} (hg : Asserts n L inv) : Asserts m L inv := by
  induction hg with
  | reads hp => exact .reads (IB.reads_mono h _ hp)
  | hasValue ho hk hv => exact .hasValue ho (IE.reads_mono h _ hk) (IE.reads_mono h _ hv)
  | and _ _ ih ih' => exact .and ih ih'

theorem Claims.mono {n m : Nat} {L : Nat → Bool} (h : n ≤ m) {inv : IB} (hg : Claims n L inv) : Claims m L inv := by
  cases hg with
  | guarded hg => exact .guarded (hg.mono h)
  | present hp => exact .present (hp.mono h)

theorem Asserts.sem_shift {n : Nat} {L : Nat → Bool} {ρ ρ' : Env} (h : Agree n ρ ρ') (M : Nat → Option Nat → Contents) (k v : Nat) (p : Bool)
    {inv : IB} (hg : Asserts n L inv) : inv.sem M ρ k v p = inv.sem M ρ' k v p := by
  induction hg with
  | reads hp => exact IB.sem_shift h M k v p _ hp
  | hasValue _ hk hv => simp only [IB.sem]; rw [IE.sem_shift h M k v p _ hk, IE.sem_shift h M k v p _ hv]
  | and _ _ ih ih' => simp only [IB.sem]; rw [ih, ih']

theorem Claims.sem_shift {n : Nat} {L : Nat → Bool} {ρ ρ' : Env} (h : Agree n ρ ρ') (M : Nat → Option Nat → Contents) (k v : Nat) (p : Bool)
    {inv : IB} (hg : Claims n L inv) : inv.sem M ρ k v p = inv.sem M ρ' k v p := by
  cases hg with
  | guarded hg => exact hg.sem_shift h M k v p
  | present hp => simp only [iimplies, IB.sem]; rw [hp.sem_shift h M k v p]

/-! A read of a map whose invariants read no map does not depend on the invariants of other maps. -/

mutual
theorem evalE_indep (g : GetFn) (item : Item) (cond : B) {n : Nat} : ∀ e : IE, e.pure n →
    ∃ r, ∀ st, evalE g item cond st e = some (r, st)
  | .key, _ => ⟨_, fun _ => rfl⟩
  | .value, _ => ⟨_, fun _ => rfl⟩
  | .lift _, _ => ⟨_, fun _ => rfl⟩
  | .op1 f a, h => by
    obtain ⟨r, hr⟩ := evalE_indep g item cond a h
    exact ⟨.op1 f r, fun st => by simp only [evalE, hr st]⟩
  | .op2 f a b, h => by
    obtain ⟨r, hr⟩ := evalE_indep g item cond a h.1
    obtain ⟨s, hs⟩ := evalE_indep g item cond b h.2
    exact ⟨.op2 f r s, fun st => by simp only [evalE, hr st, hs st]⟩
  | .ite c t e, h => by
    obtain ⟨q, hq⟩ := evalB_indep g item cond c h.1
    obtain ⟨r, hr⟩ := evalE_indep g item cond t h.2.1
    obtain ⟨s, hs⟩ := evalE_indep g item cond e h.2.2
    exact ⟨.ite q r s, fun st => by simp only [evalE, hq st, hr st, hs st]⟩
  | .mapGet .., h => h.elim
theorem evalB_indep (g : GetFn) (item : Item) (cond : B) {n : Nat} : ∀ e : IB, e.pure n →
    ∃ r, ∀ st, evalB g item cond st e = some (r, st)
  | .present, _ => ⟨_, fun _ => rfl⟩
  | .lift _, _ => ⟨_, fun _ => rfl⟩
  | .not a, h => by
    obtain ⟨r, hr⟩ := evalB_indep g item cond a h
    exact ⟨.not r, fun st => by simp only [evalB, hr st]⟩
  | .and a b, h => by
    obtain ⟨r, hr⟩ := evalB_indep g item cond a h.1
    obtain ⟨s, hs⟩ := evalB_indep g item cond b h.2
    exact ⟨.and r s, fun st => by simp only [evalB, hr st, hs st]⟩
  | .or a b, h => by
    obtain ⟨r, hr⟩ := evalB_indep g item cond a h.1
    obtain ⟨s, hs⟩ := evalB_indep g item cond b h.2
    exact ⟨.or r s, fun st => by simp only [evalB, hr st, hs st]⟩
  | .iff a b, h => by
    obtain ⟨r, hr⟩ := evalB_indep g item cond a h.1
    obtain ⟨s, hs⟩ := evalB_indep g item cond b h.2
    exact ⟨.iff r s, fun st => by simp only [evalB, hr st, hs st]⟩
  | .rel q a b, h => by
    obtain ⟨r, hr⟩ := evalE_indep g item cond a h.1
    obtain ⟨s, hs⟩ := evalE_indep g item cond b h.2
    exact ⟨.rel q r s, fun st => by simp only [evalB, hr st, hs st]⟩
  | .mapHas .., h => h.elim
  | .mapHasValue .., h => h.elim
end

theorem applyInvs_indep (g : GetFn) (item : Item) (cond : B) {n : Nat} : ∀ invs : List IB, (∀ inv ∈ invs, inv.pure n) →
    ∃ bs, ∀ st, applyInvs g item cond st invs = some (bs, st)
  | [], _ => ⟨[], fun _ => rfl⟩
  | inv :: invs, h => by
    obtain ⟨r, hr⟩ := evalB_indep g item (.and item.present cond) inv (h inv (by simp))
    obtain ⟨bs, hb⟩ := applyInvs_indep g item cond invs fun i hi => h i (by simp [hi])
    exact ⟨r :: bs, fun st => by simp only [applyInvs, applyInv, hr st, hb st]⟩

theorem plain_maps_of {L : Nat → Bool} {o : Nat} (h : L o = true) (st : State) : (st.plain L).maps o = st.maps o := by simp [State.plain, h]

theorem plain_maps_not {L : Nat → Bool} {o : Nat} (h : L o = false) (st : State) : (st.plain L).maps o = { st.maps o with invs := [] } := by
  simp [State.plain, h]

theorem plain_setMap {L : Nat → Bool} {o : Nat} (h : L o = true) (st : State) (m : MapS) : (st.plain L).setMap o m = (st.setMap o m).plain L := by
  simp only [State.plain, State.setMap]
  congr 1
  funext o'
  by_cases ho : o' = o
  · subst ho; simp [h]
  · simp [ho]

theorem plain_setMap_not {L : Nat → Bool} {o : Nat} (h : L o = false) (st : State) (m : MapS) :
    (st.setMap o m).plain L = (st.plain L).setMap o { m with invs := [] } := by
  simp only [State.plain, State.setMap]
  congr 1
  funext o'
  by_cases ho : o' = o
  · subst ho; simp [h]
  · simp [ho]

/-- A read of a map in `L` does the same with and without the invariants of the other maps, and leaves these maps alone. -/
theorem get_plain (L : Nat → Bool) (fuel : Nat) (st : State) (obj : Nat) (ver : Option Nat) (key : E) (hint : Option E) (cond : B) {n : Nat} (hL : L obj = true)
    (hp : ∀ inv ∈ (st.maps obj).invs, inv.pure n) :
    ∃ r st', get (fuel + 1) st obj ver key hint cond = some (r, st') ∧ get (fuel + 1) (st.plain L) obj ver key hint cond = some (r, st'.plain L) ∧
      ∀ o, o ≠ obj → st'.maps o = st.maps o := by
  have hm : (st.plain L).maps obj = st.maps obj := plain_maps_of hL st
  unfold get
  simp only [hm]
  split
  · exact ⟨_, _, rfl, rfl, fun _ _ => rfl⟩
  · rw [plain_setMap hL]
    generalize known (st.maps obj).base ((st.maps obj).layers.drop (skip (st.maps obj) ver)) = kn
    generalize skip (st.maps obj) ver = d
    set st1 := st.setMap obj ((st.maps obj).setLower d kn.2) with hst1
    have hm1 : st1.maps obj = (st.maps obj).setLower d kn.2 := setMap_same _ _ _
    have hoth : ∀ o, o ≠ obj → st1.maps o = st.maps o := fun o ho => setMap_other _ ho _
    have hinv1 : (st1.maps obj).invs = (st.maps obj).invs := by rw [hm1]; rfl
    have hm1' : (st1.plain L).maps obj = st1.maps obj := plain_maps_of hL st1
    show ∃ r st', (match exactMatch st1.constraints key (kn.1 ++ [(st.maps obj).unknown]) cond with
      | some i => some ((i.value, i.present), st1)
      | none => getNew (get fuel) st1 obj d kn.1 key hint cond) = some (r, st') ∧
      (match exactMatch st1.constraints key (kn.1 ++ [(st.maps obj).unknown]) cond with
      | some i => some ((i.value, i.present), st1.plain L)
      | none => getNew (get fuel) (st1.plain L) obj d kn.1 key hint cond) = some (r, st'.plain L) ∧ _
    cases exactMatch st1.constraints key (kn.1 ++ [(st.maps obj).unknown]) cond with
    | some i => exact ⟨_, _, rfl, rfl, hoth⟩
    | none =>
      simp only
      unfold getNew
      simp only [hm1', show (st1.plain L).next = st1.next from rfl]
      obtain ⟨bs, hbs⟩ := applyInvs_indep (get fuel) ⟨key, .var st1.next, .var st1.next⟩ cond (st1.maps obj).invs (by rw [hinv1]; exact hp)
      simp only [hbs]
      refine ⟨_, _, rfl, ?_, ?_⟩
      · have e : ∀ m : MapS, ((State.mk st1.constraints (st1.next + 1) (st1.plain L).maps).add (hintConstraint cond (.var st1.next) hint)).setMap obj m =
            (((State.mk st1.constraints (st1.next + 1) st1.maps).add (hintConstraint cond (.var st1.next) hint)).setMap obj m).plain L := by
          intro m
          have := plain_setMap hL ((State.mk st1.constraints (st1.next + 1) st1.maps).add (hintConstraint cond (.var st1.next) hint)) m
          exact this
        simp only [show (st1.plain L).constraints = st1.constraints from rfl]
        rw [e]
        simp only [overfullCheck, plain_maps_of hL, plain_setMap hL]
        rfl
      · intro o ho
        rw [← hoth o ho]
        simp [State.add, State.setMap, overfullCheck, ho]

/-! Reads inside of invariants. -/

/-- The state has been extended: it still describes the world, under an assignment of more symbols, and the maps not in `L` are as they were. -/
structure Ext (L : Nat → Bool) (st : State) (W : Nat → Contents) (ρ : Env) (st' : State) (ρ' : Env) : Prop where
  agree : Agree st.next ρ ρ'
  next : st.next ≤ st'.next
  cross : DescribesCross L st' W ρ'
  maps : ∀ o, L o = false → st'.maps o = st.maps o

theorem Ext.refl {L : Nat → Bool} {st : State} {W : Nat → Contents} {ρ : Env} (h : DescribesCross L st W ρ) : Ext L st W ρ st ρ :=
  ⟨Agree.refl _ _, Nat.le_refl _, h, fun _ _ => rfl⟩

theorem Ext.trans {L : Nat → Bool} {st st' st'' : State} {W : Nat → Contents} {ρ ρ' ρ'' : Env} (h : Ext L st W ρ st' ρ') (h' : Ext L st' W ρ' st'' ρ'') :
    Ext L st W ρ st'' ρ'' :=
  ⟨h.agree.trans h'.agree h.next, h.next.trans h'.next, h'.cross, fun o ho => (h'.maps o ho).trans (h.maps o ho)⟩

theorem sameLayers_nil_of {a : List Layer} (h : SameLayers a []) : a = [] := by
  simpa [SameLayers] using h

/-- A read of a map that is only read. -/
theorem leaf_get (L : Nat → Bool) (fuel : Nat) {st : State} {W : Nat → Contents} {ρ : Env} (h : DescribesCross L st W ρ) (obj : Nat) (hL : L obj = true)
    (ver : Option Nat) {key : E} {hint : Option E} {cond : B} (hk : key.within st.next) (hh : ∀ e ∈ hint, e.within st.next) (hc : cond.within st.next)
    (hhint : cond.den ρ = true → ∀ e ∈ hint, (W obj (key.den ρ)).1 = e.den ρ) :
    ∃ r st' ρ', get (fuel + 1) st obj ver key hint cond = some (r, st') ∧ Ext L st W ρ st' ρ' ∧ r.1.within st'.next ∧ r.2.within st'.next ∧
      (cond.den ρ = true → r.1.den ρ' = (W obj (key.den ρ)).1 ∧ r.2.den ρ' = (W obj (key.den ρ)).2) := by
  have hm : (st.plain L).maps obj = st.maps obj := plain_maps_of hL st
  have hlay := h.read obj hL
  have hpure : ∀ inv ∈ (st.maps obj).invs, inv.pure st.next := by
    have := (h.plain.maps obj).within.invs
    rw [hm] at this; exact this
  have hbase : BaseOk ρ (W obj) ((st.plain L).maps obj).base (((st.plain L).maps obj).layers.drop (skip ((st.plain L).maps obj) ver)) := by
    have := (h.plain.maps obj).base
    rw [hm] at this ⊢
    rw [hlay] at this ⊢
    simpa using this
  have hcont : ∀ k, (st.plain L).contentAt W ρ obj ver k = W obj k := by
    intro k
    unfold State.contentAt
    rw [hm, hlay, List.drop_nil]; rfl
  obtain ⟨r, st', hg, hgp, hfr⟩ := get_plain L fuel st obj ver key hint cond hL hpure
  obtain ⟨r', sp, ρ', hg', hr⟩ := get_read fuel h.plain obj ver (hint := hint) (cond := cond) hk hh hc hbase (by simpa only [hcont] using hhint)
  rw [hgp, Option.some.injEq, Prod.mk.injEq] at hg'
  obtain ⟨rfl, rfl⟩ := hg'
  have hn : st.next ≤ st'.next := hr.next
  have hcross : ∀ ρ'', Agree st.next ρ ρ'' → Describes (st'.plain L) W ρ'' → DescribesCross L st' W ρ'' := by
    intro ρ'' ha hd
    refine ⟨hd, fun o ho inv hi => ?_, fun o ho => ?_, fun o ho inv hi k hk' => ?_, fun o ho => ?_⟩
    · have hne : o ≠ obj := fun e => by rw [e, hL] at ho; cases ho
      rw [hfr o hne] at hi
      exact (h.claims o ho inv hi).mono hn
    · have hne : o ≠ obj := fun e => by rw [e, hL] at ho; cases ho
      rw [hfr o hne]
      exact (h.hinted o ho).imp (fun hg inv hi => (hg inv hi).mono hn) fun hs => ⟨hs.1, fun inv hi k => by
        rw [← (h.claims o ho inv hi).sem_shift ha]; exact hs.2 inv hi k⟩
    · have hne : o ≠ obj := fun e => by rw [e, hL] at ho; cases ho
      rw [hfr o hne] at hi hk'
      rw [← (h.claims o ho inv hi).sem_shift ha]
      refine h.invs o ho inv hi k fun b hb => ?_
      have hbw : b.key.within st.next := by
        have := (h.plain.maps o).within.base b (by rw [plain_maps_not ho]; exact hb)
        exact this.1
      rw [E.den_congr ha _ hbw]; exact hk' b hb
    · by_cases hne : o = obj
      · subst hne
        have := hr.layers o
        rw [hm, hlay, plain_maps_of hL] at this
        exact sameLayers_nil_of this
      · rw [hfr o hne]; exact h.read o ho
  have hmaps : ∀ o, L o = false → st'.maps o = st.maps o := fun o ho => hfr o fun e => by rw [e, hL] at ho; cases ho
  by_cases hemp : isEmpty (lengthOf (st.maps obj) ((st.maps obj).layers.drop (skip (st.maps obj) ver))) = true
  · -- the value is a symbol of which nothing is known
    have hrun : r = (.var st.next, .lit false) ∧ st' = { st with next := st.next + 1 } := by
      unfold get at hg
      simp only [hemp, if_true, Option.some.injEq, Prod.mk.injEq] at hg
      exact ⟨hg.1.symm, hg.2.symm⟩
    have hpres := hr.present
    simp only [hcont] at hpres
    obtain ⟨rfl, rfl⟩ := hrun
    have ha := agree_assign ρ st.next (W obj (key.den ρ)).1 false
    have hd : Describes (State.plain L { st with next := st.next + 1 }) W (ρ.assign st.next (W obj (key.den ρ)).1 false) := h.plain.fresh (Nat.le_succ _) ha
    refine ⟨_, _, ρ.assign st.next (W obj (key.den ρ)).1 false, hg, ⟨ha, hn, hcross _ ha hd, hmaps⟩, Nat.lt_succ_self _, trivial, fun hcd => ⟨?_, hpres hcd⟩⟩
    simp [E.den, Env.assign]
  · refine ⟨r, st', ρ', hg, ⟨hr.agree, hn, hcross _ hr.agree hr.describes, hmaps⟩, hr.within.1, hr.within.2, fun hcd => ⟨?_, ?_⟩⟩
    · rw [hr.full hcd (by rw [hm]; simpa using hemp), hcont]
    · rw [hr.present hcd, hcont]

/-- The meaning of an invariant for an item, under an assignment. -/
abbrev IE.semOf (W : Nat → Contents) (ρ : Env) (item : Item) (e : IE) : Nat :=
  e.sem (fun o _ => W o) ρ (item.key.den ρ) (item.value.den ρ) (item.present.den ρ)
abbrev IB.semOf (W : Nat → Contents) (ρ : Env) (item : Item) (e : IB) : Bool :=
  e.sem (fun o _ => W o) ρ (item.key.den ρ) (item.value.den ρ) (item.present.den ρ)

theorem IE.semOf_shift {n m : Nat} {L : Nat → Bool} {W : Nat → Contents} {ρ ρ' : Env} {item : Item} (h : Agree m ρ ρ') (hi : item.within m) (hn : n ≤ m) {e : IE}
    (he : e.reads n L) : e.semOf W ρ' item = e.semOf W ρ item := by
  unfold IE.semOf
  rw [← E.den_congr h _ hi.1, ← E.den_congr h _ hi.2.1, ← B.den_congr h _ hi.2.2, IE.sem_shift h _ _ _ _ e (IE.reads_mono hn e he)]

theorem IB.semOf_shift {n m : Nat} {L : Nat → Bool} {W : Nat → Contents} {ρ ρ' : Env} {item : Item} (h : Agree m ρ ρ') (hi : item.within m) (hn : n ≤ m) {e : IB}
    (he : e.reads n L) : e.semOf W ρ' item = e.semOf W ρ item := by
  unfold IB.semOf
  rw [← E.den_congr h _ hi.1, ← E.den_congr h _ hi.2.1, ← B.den_congr h _ hi.2.2, IB.sem_shift h _ _ _ _ e (IB.reads_mono hn e he)]

theorem Guarded.semOf_shift {n m : Nat} {L : Nat → Bool} {W : Nat → Contents} {ρ ρ' : Env} {item : Item} (h : Agree m ρ ρ') (hi : item.within m) (hn : n ≤ m) {e : IB}
    (he : Guarded n L e) : e.semOf W ρ' item = e.semOf W ρ item := by
  unfold IB.semOf
  rw [← E.den_congr h _ hi.1, ← E.den_congr h _ hi.2.1, ← B.den_congr h _ hi.2.2, (he.mono hn).sem_shift h]

theorem Item.within_mono {n m : Nat} (h : n ≤ m) {i : Item} (hi : i.within n) : i.within m :=
  ⟨E.within_mono h _ hi.1, E.within_mono h _ hi.2.1, B.within_mono h _ hi.2.2⟩

mutual
theorem evalE_reads (L : Nat → Bool) (fuel : Nat) (W : Nat → Contents) (item : Item) (cond : B) {n : Nat} : ∀ e : IE, e.reads n L → ∀ (st : State) (ρ : Env),
    n ≤ st.next → DescribesCross L st W ρ → item.within st.next → cond.within st.next → ∃ r st' ρ', evalE (get (fuel + 1)) item cond st e = some (r, st') ∧
      Ext L st W ρ st' ρ' ∧ r.within st'.next ∧ (cond.den ρ = true → r.den ρ' = e.semOf W ρ item)
  | .key, _, st, ρ, _, h, hi, _ => ⟨_, st, ρ, rfl, .refl h, hi.1, fun _ => rfl⟩
  | .value, _, st, ρ, _, h, hi, _ => ⟨_, st, ρ, rfl, .refl h, hi.2.1, fun _ => rfl⟩
  | .lift e, he, st, ρ, hn, h, _, _ => ⟨_, st, ρ, rfl, .refl h, E.within_mono hn _ he, fun _ => rfl⟩
  | .op1 f a, he, st, ρ, hn, h, hi, hc => by
    obtain ⟨r, st', ρ', h1, h2, h3, h4⟩ := evalE_reads L fuel W item cond a he st ρ hn h hi hc
    exact ⟨.op1 f r, st', ρ', by simp only [evalE, h1], h2, h3, fun hcd => by simp only [E.den, IE.sem, IE.semOf, h4 hcd]⟩
  | .op2 f a b, he, st, ρ, hn, h, hi, hc => by
    obtain ⟨r, st1, ρ1, h1, h2, h3, h4⟩ := evalE_reads L fuel W item cond a he.1 st ρ hn h hi hc
    obtain ⟨s, st2, ρ2, g1, g2, g3, g4⟩ := evalE_reads L fuel W item cond b he.2 st1 ρ1 (hn.trans h2.next) h2.cross (Item.within_mono h2.next hi) (B.within_mono h2.next _ hc)
    refine ⟨.op2 f r s, st2, ρ2, by simp only [evalE, h1, g1], h2.trans g2, ⟨E.within_mono g2.next _ h3, g3⟩, fun hcd => ?_⟩
    rw [← B.den_congr h2.agree _ hc, IE.semOf_shift h2.agree hi hn he.2] at g4
    simp only [E.den, ← E.den_congr g2.agree _ h3, h4 hcd, g4 hcd, IE.sem, IE.semOf]
  | .ite c t e, he, st, ρ, hn, h, hi, hc => by
    obtain ⟨q, st0, ρ0, q1, q2, q3, q4⟩ := evalB_reads L fuel W item cond c he.1 st ρ hn h hi hc
    obtain ⟨r, st1, ρ1, h1, h2, h3, h4⟩ := evalE_reads L fuel W item cond t he.2.1 st0 ρ0 (hn.trans q2.next) q2.cross (Item.within_mono q2.next hi) (B.within_mono q2.next _ hc)
    have h02 := q2.trans h2
    obtain ⟨s, st2, ρ2, g1, g2, g3, g4⟩ := evalE_reads L fuel W item cond e he.2.2 st1 ρ1 (hn.trans h02.next) h2.cross (Item.within_mono h02.next hi) (B.within_mono h02.next _ hc)
    refine ⟨.ite q r s, st2, ρ2, by simp only [evalE, q1, h1, g1], h02.trans g2,
      ⟨B.within_mono (h2.next.trans g2.next) _ q3, E.within_mono g2.next _ h3, g3⟩, fun hcd => ?_⟩
    rw [← B.den_congr q2.agree _ hc, IE.semOf_shift q2.agree hi hn he.2.1] at h4
    rw [← B.den_congr h02.agree _ hc, IE.semOf_shift h02.agree hi hn he.2.2] at g4
    simp only [E.den, ← E.den_congr g2.agree _ h3, ← B.den_congr (h2.agree.trans g2.agree h2.next) _ q3, q4 hcd, h4 hcd, g4 hcd, IE.sem, IE.semOf, IB.semOf]
  | .mapGet o k ver, he, st, ρ, hn, h, hi, hc => by
    obtain ⟨r, st1, ρ1, h1, h2, h3, h4⟩ := evalE_reads L fuel W item cond k he.2 st ρ hn h hi hc
    obtain ⟨s, st2, ρ2, g1, g2, g3, -, g4⟩ := leaf_get L fuel h2.cross o he.1 ver (hint := none) h3 (by simp) (B.within_mono h2.next _ hc) (by simp)
    refine ⟨s.1, st2, ρ2, by simp only [evalE, h1, g1], h2.trans g2, g3, fun hcd => ?_⟩
    rw [← B.den_congr h2.agree _ hc] at g4
    rw [(g4 hcd).1, h4 hcd]
    rfl
theorem evalB_reads (L : Nat → Bool) (fuel : Nat) (W : Nat → Contents) (item : Item) (cond : B) {n : Nat} : ∀ e : IB, e.reads n L → ∀ (st : State) (ρ : Env),
    n ≤ st.next → DescribesCross L st W ρ → item.within st.next → cond.within st.next → ∃ r st' ρ', evalB (get (fuel + 1)) item cond st e = some (r, st') ∧
      Ext L st W ρ st' ρ' ∧ r.within st'.next ∧ (cond.den ρ = true → r.den ρ' = e.semOf W ρ item)
  | .present, _, st, ρ, _, h, hi, _ => ⟨_, st, ρ, rfl, .refl h, hi.2.2, fun _ => rfl⟩
  | .lift b, he, st, ρ, hn, h, _, _ => ⟨_, st, ρ, rfl, .refl h, B.within_mono hn _ he, fun _ => rfl⟩
  | .not a, he, st, ρ, hn, h, hi, hc => by
    obtain ⟨r, st', ρ', h1, h2, h3, h4⟩ := evalB_reads L fuel W item cond a he st ρ hn h hi hc
    exact ⟨.not r, st', ρ', by simp only [evalB, h1], h2, h3, fun hcd => by simp only [B.den, IB.sem, IB.semOf, h4 hcd]⟩
  | .and a b, he, st, ρ, hn, h, hi, hc => by
    obtain ⟨r, st1, ρ1, h1, h2, h3, h4⟩ := evalB_reads L fuel W item cond a he.1 st ρ hn h hi hc
    obtain ⟨s, st2, ρ2, g1, g2, g3, g4⟩ := evalB_reads L fuel W item cond b he.2 st1 ρ1 (hn.trans h2.next) h2.cross (Item.within_mono h2.next hi) (B.within_mono h2.next _ hc)
    refine ⟨.and r s, st2, ρ2, by simp only [evalB, h1, g1], h2.trans g2, ⟨B.within_mono g2.next _ h3, g3⟩, fun hcd => ?_⟩
    rw [← B.den_congr h2.agree _ hc, IB.semOf_shift h2.agree hi hn he.2] at g4
    simp only [B.den, ← B.den_congr g2.agree _ h3, h4 hcd, g4 hcd, IB.sem, IB.semOf]
  | .or a b, he, st, ρ, hn, h, hi, hc => by
    obtain ⟨r, st1, ρ1, h1, h2, h3, h4⟩ := evalB_reads L fuel W item cond a he.1 st ρ hn h hi hc
    obtain ⟨s, st2, ρ2, g1, g2, g3, g4⟩ := evalB_reads L fuel W item cond b he.2 st1 ρ1 (hn.trans h2.next) h2.cross (Item.within_mono h2.next hi) (B.within_mono h2.next _ hc)
    refine ⟨.or r s, st2, ρ2, by simp only [evalB, h1, g1], h2.trans g2, ⟨B.within_mono g2.next _ h3, g3⟩, fun hcd => ?_⟩
    rw [← B.den_congr h2.agree _ hc, IB.semOf_shift h2.agree hi hn he.2] at g4
    simp only [B.den, ← B.den_congr g2.agree _ h3, h4 hcd, g4 hcd, IB.sem, IB.semOf]
  | .iff a b, he, st, ρ, hn, h, hi, hc => by
    obtain ⟨r, st1, ρ1, h1, h2, h3, h4⟩ := evalB_reads L fuel W item cond a he.1 st ρ hn h hi hc
    obtain ⟨s, st2, ρ2, g1, g2, g3, g4⟩ := evalB_reads L fuel W item cond b he.2 st1 ρ1 (hn.trans h2.next) h2.cross (Item.within_mono h2.next hi) (B.within_mono h2.next _ hc)
    refine ⟨.iff r s, st2, ρ2, by simp only [evalB, h1, g1], h2.trans g2, ⟨B.within_mono g2.next _ h3, g3⟩, fun hcd => ?_⟩
    rw [← B.den_congr h2.agree _ hc, IB.semOf_shift h2.agree hi hn he.2] at g4
    simp only [B.den, ← B.den_congr g2.agree _ h3, h4 hcd, g4 hcd, IB.sem, IB.semOf]
  | .rel q a b, he, st, ρ, hn, h, hi, hc => by
    obtain ⟨r, st1, ρ1, h1, h2, h3, h4⟩ := evalE_reads L fuel W item cond a he.1 st ρ hn h hi hc
    obtain ⟨s, st2, ρ2, g1, g2, g3, g4⟩ := evalE_reads L fuel W item cond b he.2 st1 ρ1 (hn.trans h2.next) h2.cross (Item.within_mono h2.next hi) (B.within_mono h2.next _ hc)
    refine ⟨.rel q r s, st2, ρ2, by simp only [evalB, h1, g1], h2.trans g2, ⟨E.within_mono g2.next _ h3, g3⟩, fun hcd => ?_⟩
    rw [← B.den_congr h2.agree _ hc, IE.semOf_shift h2.agree hi hn he.2] at g4
    simp only [B.den, ← E.den_congr g2.agree _ h3, h4 hcd, g4 hcd, IB.sem, IB.semOf, IE.semOf]
  | .mapHas o k ver, he, st, ρ, hn, h, hi, hc => by
    obtain ⟨r, st1, ρ1, h1, h2, h3, h4⟩ := evalE_reads L fuel W item cond k he.2 st ρ hn h hi hc
    obtain ⟨s, st2, ρ2, g1, g2, -, g3, g4⟩ := leaf_get L fuel h2.cross o he.1 none (hint := none) h3 (by simp) (B.within_mono h2.next _ hc) (by simp)
    refine ⟨s.2, st2, ρ2, by simp only [evalB, h1, g1], h2.trans g2, g3, fun hcd => ?_⟩
    rw [← B.den_congr h2.agree _ hc] at g4
    rw [(g4 hcd).2, h4 hcd]
    rfl
  | .mapHasValue .., he, _, _, _, _, _, _ => he.elim
end

/-- Invariants that read other maps only for present items are evaluated to what they mean, whether the item is present or not. -/
theorem evalB_guarded (L : Nat → Bool) (fuel : Nat) (W : Nat → Contents) (item : Item) {n : Nat} {e : IB} (he : Guarded n L e) : ∀ (st : State) (ρ : Env),
    n ≤ st.next → DescribesCross L st W ρ → item.within st.next → ∃ r st' ρ', evalB (get (fuel + 1)) item (.and item.present (.lit true)) st e = some (r, st') ∧
      Ext L st W ρ st' ρ' ∧ r.within st'.next ∧ r.den ρ' = e.semOf W ρ item := by
  induction he with
  | pure hp =>
    intro st ρ hn h hi
    obtain ⟨r, h1, h2, h3⟩ := evalB_pure (get (fuel + 1)) item (.and item.present (.lit true)) st hi hn _ hp
    exact ⟨r, st, ρ, h1, .refl h, h2, (h3 ρ).trans (IB.sem_pure _ _ _ _ _ _ _ hp)⟩
  | @present a hp =>
    intro st ρ hn h hi
    obtain ⟨r, st', ρ', h1, h2, h3, h4⟩ := evalB_reads L fuel W item (.and item.present (.lit true)) a hp st ρ hn h hi ⟨hi.2.2, trivial⟩
    refine ⟨.or (.not item.present) r, st', ρ', by simp only [iimplies, evalB, h1], h2, ⟨B.within_mono h2.next _ hi.2.2, h3⟩, ?_⟩
    simp only [B.den, Bool.and_true, IB.semOf] at h4
    simp only [B.den, iimplies, IB.sem, IB.semOf, ← B.den_congr h2.agree _ hi.2.2]
    cases hpd : item.present.den ρ with
    | false => rfl
    | true => rw [h4 hpd, hpd]
  | not _ ih =>
    intro st ρ hn h hi
    obtain ⟨r, st', ρ', h1, h2, h3, h4⟩ := ih st ρ hn h hi
    exact ⟨.not r, st', ρ', by simp only [evalB, h1], h2, h3, by simp only [B.den, IB.sem, IB.semOf, h4]⟩
  | @and a b _ hb ih ih' =>
    intro st ρ hn h hi
    obtain ⟨r, st1, ρ1, h1, h2, h3, h4⟩ := ih st ρ hn h hi
    obtain ⟨s, st2, ρ2, g1, g2, g3, g4⟩ := ih' st1 ρ1 (hn.trans h2.next) h2.cross (Item.within_mono h2.next hi)
    refine ⟨.and r s, st2, ρ2, by simp only [evalB, h1, g1], h2.trans g2, ⟨B.within_mono g2.next _ h3, g3⟩, ?_⟩
    rw [hb.semOf_shift h2.agree hi hn] at g4
    simp only [B.den, ← B.den_congr g2.agree _ h3, h4, g4, IB.sem, IB.semOf]
  | @or a b _ hb ih ih' =>
    intro st ρ hn h hi
    obtain ⟨r, st1, ρ1, h1, h2, h3, h4⟩ := ih st ρ hn h hi
    obtain ⟨s, st2, ρ2, g1, g2, g3, g4⟩ := ih' st1 ρ1 (hn.trans h2.next) h2.cross (Item.within_mono h2.next hi)
    refine ⟨.or r s, st2, ρ2, by simp only [evalB, h1, g1], h2.trans g2, ⟨B.within_mono g2.next _ h3, g3⟩, ?_⟩
    rw [hb.semOf_shift h2.agree hi hn] at g4
    simp only [B.den, ← B.den_congr g2.agree _ h3, h4, g4, IB.sem, IB.semOf]
  | @iff a b _ hb ih ih' =>
    intro st ρ hn h hi
    obtain ⟨r, st1, ρ1, h1, h2, h3, h4⟩ := ih st ρ hn h hi
    obtain ⟨s, st2, ρ2, g1, g2, g3, g4⟩ := ih' st1 ρ1 (hn.trans h2.next) h2.cross (Item.within_mono h2.next hi)
    refine ⟨.iff r s, st2, ρ2, by simp only [evalB, h1, g1], h2.trans g2, ⟨B.within_mono g2.next _ h3, g3⟩, ?_⟩
    rw [hb.semOf_shift h2.agree hi hn] at g4
    simp only [B.den, ← B.den_congr g2.agree _ h3, h4, g4, IB.sem, IB.semOf]

/-- What is said of a present item is found to hold, if it holds. -/
theorem evalB_asserts (L : Nat → Bool) (fuel : Nat) (W : Nat → Contents) (item : Item) (cond : B) {n : Nat} {e : IB} (he : Asserts n L e) : ∀ (st : State) (ρ : Env),
    n ≤ st.next → DescribesCross L st W ρ → item.within st.next → cond.within st.next → (cond.den ρ = true → e.semOf W ρ item = true) →
    ∃ r st' ρ', evalB (get (fuel + 1)) item cond st e = some (r, st') ∧ Ext L st W ρ st' ρ' ∧ r.within st'.next ∧ (cond.den ρ = true → r.den ρ' = true) := by
  induction he with
  | @reads a hr =>
    intro st ρ hn h hi hc hs
    obtain ⟨r, st', ρ', h1, h2, h3, h4⟩ := evalB_reads L fuel W item cond a hr st ρ hn h hi hc
    exact ⟨r, st', ρ', h1, h2, h3, fun hcd => (h4 hcd).trans (hs hcd)⟩
  | @hasValue o k v ver ho hk hv =>
    intro st ρ hn h hi hc hs
    obtain ⟨r, st1, ρ1, h1, h2, h3, h4⟩ := evalE_reads L fuel W item cond k hk st ρ hn h hi hc
    obtain ⟨s, st2, ρ2, g1, g2, g3, g4⟩ := evalE_reads L fuel W item cond v hv st1 ρ1 (hn.trans h2.next) h2.cross (Item.within_mono h2.next hi) (B.within_mono h2.next _ hc)
    have h12 := h2.trans g2
    rw [← B.den_congr h2.agree _ hc, IE.semOf_shift h2.agree hi hn hv] at g4
    have hr2 : r.den ρ2 = r.den ρ1 := (E.den_congr g2.agree _ h3).symm
    have hs' : cond.den ρ = true → (W o (k.semOf W ρ item)).2 = true ∧ (W o (k.semOf W ρ item)).1 = v.semOf W ρ item := fun hcd => by
      have := hs hcd
      simpa only [IB.semOf, IB.sem, Bool.and_eq_true, beq_iff_eq] using this
    obtain ⟨t, st3, ρ3, q1, q2, q3, q4, q5⟩ := leaf_get L fuel g2.cross o ho ver (key := r) (hint := some s) (cond := cond) (E.within_mono g2.next _ h3) (by simpa using g3)
      (B.within_mono h12.next _ hc) (by
        intro hcd e he
        rw [← B.den_congr h12.agree _ hc] at hcd
        obtain rfl : s = e := by simpa using he
        rw [hr2, h4 hcd, g4 hcd]; exact (hs' hcd).2)
    refine ⟨.and t.2 (t.1.eq s), st3, ρ3, by simp only [evalB, h1, g1, q1], h12.trans q2, ⟨q4, q3, E.within_mono q2.next _ g3⟩, fun hcd => ?_⟩
    have q5 := q5 (by rw [← B.den_congr h12.agree _ hc]; exact hcd)
    simp only [B.den, den_eq, ← E.den_congr q2.agree _ g3, q5.1, q5.2, hr2, h4 hcd, g4 hcd, (hs' hcd).1, (hs' hcd).2, beq_self_eq_true, Bool.and_self]
  | @and a b ha hb ih ih' =>
    intro st ρ hn h hi hc hs
    have hs' : cond.den ρ = true → a.semOf W ρ item = true ∧ b.semOf W ρ item = true := fun hcd => by
      have := hs hcd
      simpa only [IB.semOf, IB.sem, Bool.and_eq_true] using this
    obtain ⟨r, st1, ρ1, h1, h2, h3, h4⟩ := ih st ρ hn h hi hc fun hcd => (hs' hcd).1
    obtain ⟨s, st2, ρ2, g1, g2, g3, g4⟩ := ih' st1 ρ1 (hn.trans h2.next) h2.cross (Item.within_mono h2.next hi) (B.within_mono h2.next _ hc) (by
      rw [← B.den_congr h2.agree _ hc]
      intro hcd
      have := (hs' hcd).2
      unfold IB.semOf at this ⊢
      rw [← E.den_congr h2.agree _ hi.1, ← E.den_congr h2.agree _ hi.2.1, ← B.den_congr h2.agree _ hi.2.2, ← (hb.mono hn).sem_shift h2.agree]
      exact this)
    refine ⟨.and r s, st2, ρ2, by simp only [evalB, h1, g1], h2.trans g2, ⟨B.within_mono g2.next _ h3, g3⟩, fun hcd => ?_⟩
    rw [← B.den_congr h2.agree _ hc] at g4
    simp only [B.den, ← B.den_congr g2.agree _ h3, h4 hcd, g4 hcd, Bool.and_self]

theorem Claims.semOf_shift {n m : Nat} {L : Nat → Bool} {W : Nat → Contents} {ρ ρ' : Env} {item : Item} (h : Agree m ρ ρ') (hi : item.within m) (hn : n ≤ m) {e : IB}
    (he : Claims n L e) : e.semOf W ρ' item = e.semOf W ρ item := by
  unfold IB.semOf
  rw [← E.den_congr h _ hi.1, ← E.den_congr h _ hi.2.1, ← B.den_congr h _ hi.2.2, (he.mono hn).sem_shift h]

theorem applyInvs_claims (L : Nat → Bool) (fuel : Nat) (W : Nat → Contents) (item : Item) {n : Nat} : ∀ (invs : List IB), (∀ inv ∈ invs, Claims n L inv) →
    ∀ (st : State) (ρ : Env), n ≤ st.next → DescribesCross L st W ρ → item.within st.next → (∀ inv ∈ invs, inv.semOf W ρ item = true) → ∃ bs st' ρ',
      applyInvs (get (fuel + 1)) item (.lit true) st invs = some (bs, st') ∧ Ext L st W ρ st' ρ' ∧ (∀ b ∈ bs, b.within st'.next) ∧ ∀ b ∈ bs, b.den ρ' = true
  | [], _, st, ρ, _, h, _, _ => ⟨[], st, ρ, rfl, .refl h, by simp, by simp⟩
  | inv :: invs, hg, st, ρ, hn, h, hi, hs => by
    have hone : ∃ r st' ρ', evalB (get (fuel + 1)) item (.and item.present (.lit true)) st inv = some (r, st') ∧ Ext L st W ρ st' ρ' ∧ r.within st'.next ∧ r.den ρ' = true := by
      have hsi := hs inv (by simp)
      cases hg inv (by simp) with
      | guarded hg =>
        obtain ⟨r, st', ρ', h1, h2, h3, h4⟩ := evalB_guarded L fuel W item hg st ρ hn h hi
        exact ⟨r, st', ρ', h1, h2, h3, h4.trans hsi⟩
      | @present a ha =>
        have hsa : (B.and item.present (.lit true)).den ρ = true → a.semOf W ρ item = true := by
          intro hp
          simp only [B.den, Bool.and_true] at hp
          simpa [IB.semOf, iimplies, IB.sem, hp] using hsi
        obtain ⟨r, st', ρ', h1, h2, h3, h4⟩ := evalB_asserts L fuel W item (.and item.present (.lit true)) ha st ρ hn h hi ⟨hi.2.2, trivial⟩ hsa
        refine ⟨.or (.not item.present) r, st', ρ', by simp only [iimplies, evalB, h1], h2, ⟨B.within_mono h2.next _ hi.2.2, h3⟩, ?_⟩
        simp only [B.den, Bool.and_true] at h4
        simp only [B.den, ← B.den_congr h2.agree _ hi.2.2]
        cases hpd : item.present.den ρ with
        | false => rfl
        | true => rw [h4 hpd]; rfl
    obtain ⟨r, st1, ρ1, h1, h2, h3, h4⟩ := hone
    obtain ⟨bs, st2, ρ2, g1, g2, g3, g4⟩ := applyInvs_claims L fuel W item invs (fun i hi' => hg i (by simp [hi'])) st1 ρ1 (hn.trans h2.next) h2.cross (Item.within_mono h2.next hi)
      (fun i hi' => by rw [(hg i (by simp [hi'])).semOf_shift h2.agree hi hn]; exact hs i (by simp [hi']))
    refine ⟨r :: bs, st2, ρ2, by simp only [applyInvs, applyInv, h1, g1], h2.trans g2, ?_, ?_⟩
    · intro b hb
      rcases List.mem_cons.1 hb with rfl | hb
      · exact B.within_mono g2.next _ h3
      · exact g3 b hb
    · intro b hb
      rcases List.mem_cons.1 hb with rfl | hb
      · rw [← B.den_congr g2.agree _ h3, h4]
      · exact g4 b hb

theorem applyInvs_guarded (L : Nat → Bool) (fuel : Nat) (W : Nat → Contents) (item : Item) {n : Nat} : ∀ (invs : List IB), (∀ inv ∈ invs, Guarded n L inv) →
    ∀ (st : State) (ρ : Env), n ≤ st.next → DescribesCross L st W ρ → item.within st.next → ∃ bs st' ρ',
      applyInvs (get (fuel + 1)) item (.lit true) st invs = some (bs, st') ∧ Ext L st W ρ st' ρ' ∧ (∀ b ∈ bs, b.within st'.next) ∧
      ((∀ inv ∈ invs, inv.semOf W ρ item = true) → ∀ b ∈ bs, b.den ρ' = true)
  | [], _, st, ρ, _, h, _ => ⟨[], st, ρ, rfl, .refl h, by simp, by simp⟩
  | inv :: invs, hg, st, ρ, hn, h, hi => by
    obtain ⟨r, st1, ρ1, h1, h2, h3, h4⟩ := evalB_guarded L fuel W item (hg inv (by simp)) st ρ hn h hi
    obtain ⟨bs, st2, ρ2, g1, g2, g3, g4⟩ := applyInvs_guarded L fuel W item invs (fun i hi' => hg i (by simp [hi'])) st1 ρ1 (hn.trans h2.next) h2.cross (Item.within_mono h2.next hi)
    refine ⟨r :: bs, st2, ρ2, by simp only [applyInvs, applyInv, h1, g1], h2.trans g2, ?_, fun hs => ?_⟩
    · intro b hb
      rcases List.mem_cons.1 hb with rfl | hb
      · exact B.within_mono g2.next _ h3
      · exact g3 b hb
    · intro b hb
      rcases List.mem_cons.1 hb with rfl | hb
      · rw [← B.den_congr g2.agree _ h3, h4]; exact hs inv (by simp)
      · refine g4 (fun i hi' => ?_) b hb
        rw [(hg i (by simp [hi'])).semOf_shift h2.agree hi hn]
        exact hs i (by simp [hi'])

/-! Reads of a map whose invariants read others. -/

theorem DescribesCross.fresh {L : Nat → Bool} {st : State} {W : Nat → Contents} {ρ : Env} (h : DescribesCross L st W ρ) {n : Nat} (hn : st.next ≤ n) {ρ' : Env}
    (ha : Agree st.next ρ ρ') : DescribesCross L { st with next := n } W ρ' := by
  refine ⟨h.plain.fresh hn ha, fun o ho inv hi => (h.claims o ho inv hi).mono hn, fun o ho => ?_, fun o ho inv hi k hk => ?_, h.read⟩
  · exact (h.hinted o ho).imp (fun hg inv hi => (hg inv hi).mono hn) fun hs => ⟨hs.1, fun inv hi k => by
      rw [← (h.claims o ho inv hi).sem_shift ha]; exact hs.2 inv hi k⟩
  rw [← (h.claims o ho inv hi).sem_shift ha]
  refine h.invs o ho inv hi k fun b hb => ?_
  have hbw := ((h.plain.maps o).within.base b (by rw [plain_maps_not ho]; exact hb)).1
  rw [E.den_congr ha _ hbw]; exact hk b hb

theorem DescribesCross.add {L : Nat → Bool} {st : State} {W : Nat → Contents} {ρ : Env} (h : DescribesCross L st W ρ) {cs : List B}
    (hc : ∀ c ∈ cs, c.within st.next ∧ c.den ρ = true) : DescribesCross L (st.add cs) W ρ :=
  ⟨h.plain.add hc, h.claims, h.hinted, h.invs, h.read⟩

theorem DescribesCross.setMap {L : Nat → Bool} {st : State} {W : Nat → Contents} {ρ : Env} (h : DescribesCross L st W ρ) {obj : Nat} (hL : L obj = false) {m : MapS}
    (hm : MapOk st.next ρ (W obj) { m with invs := [] }) (hi : m.invs = (st.maps obj).invs) (hb : ∀ b ∈ (st.maps obj).base, b ∈ m.base)
    (hh : (∀ inv ∈ (st.maps obj).invs, Guarded st.next L inv) ∨ SameLayers m.layers (st.maps obj).layers) :
    DescribesCross L (st.setMap obj m) W ρ := by
  refine ⟨by rw [plain_setMap_not hL]; exact h.plain.setMap hm, fun o ho inv hinv => ?_, fun o ho => ?_, fun o ho inv hinv k hk => ?_, fun o ho => ?_⟩
  · by_cases e : o = obj
    · subst e; rw [setMap_same, hi] at hinv; exact h.claims o ho inv hinv
    · rw [setMap_other _ e] at hinv; exact h.claims o ho inv hinv
  · by_cases e : o = obj
    · subst e
      rw [setMap_same, hi]
      rcases hh with hh | hh
      · exact .inl hh
      · refine (h.hinted o ho).imp id fun hs => ⟨?_, hs.2⟩
        rw [hs.1] at hh; exact sameLayers_nil_of hh
    · rw [setMap_other _ e]; exact h.hinted o ho
  · by_cases e : o = obj
    · subst e; rw [setMap_same, hi] at hinv; rw [setMap_same] at hk
      exact h.invs o ho inv hinv k fun b hb' => hk b (hb b hb')
    · rw [setMap_other _ e] at hinv hk; exact h.invs o ho inv hinv k hk
  · have e : o ≠ obj := fun e => by rw [e, hL] at ho; cases ho
    rw [setMap_other _ e]; exact h.read o ho

theorem DescribesCross.mapOk {L : Nat → Bool} {st : State} {W : Nat → Contents} {ρ : Env} (h : DescribesCross L st W ρ) {obj : Nat} (hL : L obj = false) :
    MapOk st.next ρ (W obj) { st.maps obj with invs := [] } := by
  have := h.plain.maps obj
  rw [plain_maps_not hL] at this
  exact this

/-- The read returned what the world has at the key, and the state still describes the world. -/
structure ReadC (L : Nat → Bool) (st : State) (W : Nat → Contents) (ρ : Env) (obj : Nat) (key : E) (r : E × B) (st' : State) (ρ' : Env) : Prop where
  agree : Agree st.next ρ ρ'
  next : st.next ≤ st'.next
  cross : DescribesCross L st' W ρ'
  within : r.1.within st'.next ∧ r.2.within st'.next
  present : r.2.den ρ' = (st.contentAt W ρ obj none (key.den ρ)).2
  value : (st.contentAt W ρ obj none (key.den ρ)).2 = true → r.1.den ρ' = (st.contentAt W ρ obj none (key.den ρ)).1
  layers : ∀ o, SameLayers (st'.maps o).layers (st.maps o).layers
  length : ∀ o, L o = false → (st'.maps o).baseLength = (st.maps o).baseLength
  unknown : ∀ o, L o = false → (st'.maps o).unknown = (st.maps o).unknown
  invs : ∀ o, L o = false → (st'.maps o).invs = (st.maps o).invs
  touch : L obj = false → key.den ρ ≠ (st.maps obj).unknown.key.den ρ → (∃ b ∈ (st'.maps obj).base, b.key.den ρ' = key.den ρ') ∨ (W obj (key.den ρ)).2 = false

theorem lengthOf_noInvs (m : MapS) (ls : List Layer) : lengthOf { m with invs := [] } ls = lengthOf m ls := by
  cases ls <;> rfl

theorem getNew_cross (L : Nat → Bool) (fuel : Nat) {st : State} {W : Nat → Contents} {ρ : Env} (h : DescribesCross L st W ρ) (obj : Nat) (hL : L obj = false) {key : E}
    (hk : key.within st.next) :
    ∃ r st' ρ', getNew (get (fuel + 1)) st obj 0 (items (st.maps obj).base (st.maps obj).layers) key none (.lit true) = some (r, st') ∧
      Agree st.next ρ ρ' ∧ st.next ≤ st'.next ∧ DescribesCross L st' W ρ' ∧ r.1.within st'.next ∧ r.2.within st'.next ∧
      (r.1.den ρ', r.2.den ρ') = content ρ (W obj) (st.maps obj).layers (key.den ρ) ∧
      (∀ o, SameLayers (st'.maps o).layers (st.maps o).layers) ∧
      (∀ o, L o = false → (st'.maps o).baseLength = (st.maps o).baseLength ∧ (st'.maps o).unknown = (st.maps o).unknown ∧ (st'.maps o).invs = (st.maps o).invs) ∧
      (∃ i : Item, i.key = key ∧ (st'.maps obj).base = (st.maps obj).base ++ [i]) := by
  have hm := h.mapOk hL
  set m := st.maps obj with hmdef
  set c := content ρ (W obj) m.layers with hcdef
  set ρ1 := ρ.assign st.next (c (key.den ρ)).1 (c (key.den ρ)).2 with hρ1
  have ha : Agree st.next ρ ρ1 := agree_assign _ _ _ _
  let item : Item := ⟨key, .var st.next, .var st.next⟩
  have hitem : item.within (st.next + 1) := ⟨E.within_mono (Nat.le_succ _) _ hk, Nat.lt_succ_self _, Nat.lt_succ_self _⟩
  have hkey : key.den ρ1 = key.den ρ := (E.den_congr ha key hk).symm
  have hval : (item.value.den ρ1, item.present.den ρ1) = c (key.den ρ) := by
    simp [item, E.den, B.den, hρ1, Env.assign]
  have hwl : ∀ l ∈ m.layers, ∀ i ∈ l.items, i.within st.next := fun l hl i hi => (hm.within.layers l hl).2 i hi
  have hcc : content ρ1 (W obj) m.layers = c := (content_congr ha _ hwl).symm
  have hitemOkd : item.ok ρ1 (content ρ1 (W obj) m.layers) := by
    show content ρ1 (W obj) m.layers (key.den ρ1) = _
    rw [hval, hcc, hkey]
  have hitemOk : Untouched ρ1 m.layers (item.key.den ρ1) → item.ok ρ1 (W obj) := by
    intro hu
    have := hitemOkd
    unfold Item.ok at this ⊢
    rw [content_untouched hu] at this
    exact this
  -- the state with the item
  let st0 : State := { st with next := st.next + 1 }
  have hd0 : DescribesCross L st0 W ρ1 := h.fresh (Nat.le_succ _) ha
  let m1 : MapS := { m with base := m.base ++ [item] }
  have hm1 : MapOk (st.next + 1) ρ1 (W obj) { m1 with invs := [] } := MapOk.addItem (m := { m with invs := [] }) (hd0.mapOk hL) hitem hitemOk
  let st1 : State := st0.setMap obj m1
  have hd1 : DescribesCross L st1 W ρ1 := hd0.setMap hL hm1 rfl (fun b hb => by simp [m1, show st0.maps obj = m from rfl] at hb ⊢; exact .inl hb) (.inr rfl)
  -- the invariants
  have happ : ∃ bs st2 ρ2, applyInvs (get (fuel + 1)) item (.lit true) st1 m.invs = some (bs, st2) ∧ Ext L st1 W ρ1 st2 ρ2 ∧ (∀ b ∈ bs, b.within st2.next) ∧
      ((∀ inv ∈ m.invs, inv.semOf W ρ1 item = true) → ∀ b ∈ bs, b.den ρ2 = true) := by
    rcases h.hinted obj hL with hg | ⟨hlay, hall⟩
    · exact applyInvs_guarded L fuel W item m.invs hg st1 ρ1 (Nat.le_succ st.next) hd1 hitem
    · obtain ⟨bs, st2, ρ2, h1, h2, h3, h4⟩ := applyInvs_claims L fuel W item m.invs (h.claims obj hL) st1 ρ1 (Nat.le_succ st.next) hd1 hitem (by
        intro inv hinv
        have hw : W obj (key.den ρ) = (item.value.den ρ1, item.present.den ρ1) := by
          rw [hval, hcdef, hmdef, hlay]; rfl
        have := hall inv hinv (key.den ρ)
        rw [hw, (h.claims obj hL inv hinv).sem_shift ha, ← hkey] at this
        exact this)
      exact ⟨bs, st2, ρ2, h1, h2, h3, fun _ => h4⟩
  obtain ⟨bs, st2, ρ2, hbs, hext, hbsw, hbsd⟩ := happ
  have hn12 : st.next + 1 ≤ st2.next := hext.next
  have ha2 : Agree st.next ρ ρ2 := ha.trans hext.agree (Nat.le_succ _)
  have hst2 : st2.maps obj = m1 := (hext.maps obj hL).trans (setMap_same _ _ _)
  have hm2 : MapOk st2.next ρ2 (W obj) { m1 with invs := [] } := by have := hext.cross.mapOk hL; rw [hst2] at this; exact this
  have hitem2 : item.within st2.next := Item.within_mono hn12 hitem
  have hkey2 : key.den ρ2 = key.den ρ := (E.den_congr ha2 key hk).symm
  have hval2 : (item.value.den ρ2, item.present.den ρ2) = c (key.den ρ) := by
    rw [← E.den_congr hext.agree _ hitem.2.1, ← B.den_congr hext.agree _ hitem.2.2]; exact hval
  have hcc2 : content ρ2 (W obj) m.layers = c := (content_congr ha2 _ hwl).symm
  -- the length
  have hce := known_eq m1.base m1.layers hm2.caches
  have hover : ∃ b st3, overfullCheck st2 obj 0 = (b, st3) ∧ b.within st2.next ∧ b.den ρ2 = true ∧
      st3 = st2.setMap obj (m1.setLower 0 (known m1.base m1.layers).2) := by
    refine ⟨_, _, rfl, ?_, ?_, by rw [hst2]; rfl⟩
    · rw [hst2, List.drop_zero, hce.1]
      exact notOverfull_below (lengthOf_within hm2.within 0) (items_below hm2.within.base fun l hl => (hm2.within.layers l hl).2)
    · rw [hst2, List.drop_zero, hce.1]
      exact notOverfull_holds (hm2.length 0) (items_ok hm2.distinct hm2.base)
  obtain ⟨b, st3, ho, hbw, hbd, rfl⟩ := hover
  let m2 : MapS := m1.setLower 0 (known m1.base m1.layers).2
  have hd2 : DescribesCross L (st2.setMap obj m2) W ρ2 := by
    refine hext.cross.setMap hL ?_ (by rw [hst2]; rfl) (by rw [hst2]; exact fun b hb => hb) (.inr (by rw [hst2]; exact SameLayers.setLower (ls := m1.layers) (d := 0) hce.2.2))
    exact hm2.setLower (d := 0) hce.2.1 hce.2.2
  have hsl : SameLayers m2.layers m.layers := SameLayers.setLower (ls := m.layers) (d := 0) hce.2.2
  -- the known items are right
  have hmo : MapOk st2.next ρ2 (W obj) { m with invs := [] } := hm.congr (by omega) ha2
  have hknown : ∀ i ∈ items m.base m.layers, i.ok ρ2 c ∧ i.within st2.next := by
    intro i hi
    refine ⟨?_, items_below hmo.within.base (fun l hl => (hmo.within.layers l hl).2) i hi⟩
    rw [← hcc2]
    exact items_ok (ls := m.layers) hmo.distinct hmo.base i hi
  have hunk : m.unknown.ok ρ2 c ∧ m.unknown.within st2.next := by
    refine ⟨?_, hmo.within.unknown⟩
    unfold Item.ok
    rw [← hcc2, content_untouched hmo.unknownKey]
    exact hmo.unknown
  let cs : List B := sameAs item (items m.base m.layers ++ [m.unknown]) ++ bs.map (implies (isUnknown key (items m.base m.layers))) ++ [b]
  have hrun : getNew (get (fuel + 1)) st obj 0 (items m.base m.layers) key none (.lit true) = some ((item.value, item.present), (st2.setMap obj m2).add cs) := by
    unfold getNew
    show (match applyInvs (get (fuel + 1)) item (.lit true) st1 m.invs with
      | none => none
      | some (bs, st2) =>
        let o := overfullCheck st2 obj 0
        some ((item.value, item.present), o.2.add (sameAs item (items m.base m.layers ++ [m.unknown]) ++
          bs.map (implies (isUnknown key (items m.base m.layers))) ++ [o.1]))) = _
    rw [hbs]
    simp only [ho]
    rfl
  have hmaps : ∀ o, o ≠ obj → ((st2.setMap obj m2).add cs).maps o = st2.maps o := fun o ho => setMap_other st2 ho m2
  have hmapo : ((st2.setMap obj m2).add cs).maps obj = m2 := setMap_same _ _ _
  have hoth : ∀ o, o ≠ obj → L o = false → st2.maps o = st.maps o := fun o ho hLo => (hext.maps o hLo).trans (setMap_other st0 ho m1)
  refine ⟨(item.value, item.present), (st2.setMap obj m2).add cs, ρ2, hrun, ha2, (Nat.le_succ _).trans hn12, ?_, hitem2.2.1, hitem2.2.2, hval2,
    fun o => ?_, fun o hLo => ?_, ⟨item, rfl, ?_⟩⟩
  · apply hd2.add
    intro x hx
    show x.within st2.next ∧ _
    rcases List.mem_append.1 hx with hx | hx
    · rcases List.mem_append.1 hx with hx | hx
      · simp only [sameAs, List.mem_map] at hx
        obtain ⟨i, hi, rfl⟩ := hx
        have hi' : i.ok ρ2 c ∧ i.within st2.next := by
          rcases List.mem_append.1 hi with hi | hi
          · exact hknown i hi
          · rw [List.mem_singleton.1 hi]; exact hunk
        refine ⟨⟨⟨hitem2.1, hi'.2.1⟩, ⟨⟨hitem2.2.1, hi'.2.2.1⟩, ⟨hitem2.2.2, hi'.2.2.2⟩⟩⟩, ?_⟩
        rw [den_implies]
        intro he
        have he' : key.den ρ2 = i.key.den ρ2 := by simpa [den_eq] using he
        have h1 := hi'.1
        unfold Item.ok at h1
        rw [← he', hkey2, ← hval2] at h1
        simp only [Prod.mk.injEq] at h1
        simp [B.den, den_eq, h1.1, h1.2]
      · obtain ⟨b', hb', rfl⟩ := List.mem_map.1 hx
        refine ⟨⟨below_andAll _ ?_, hbsw b' hb'⟩, ?_⟩
        · intro y hy
          obtain ⟨i, hi, rfl⟩ := List.mem_map.1 hy
          exact ⟨hitem2.1, (hknown i hi).2.1⟩
        · rw [den_implies]
          intro hun
          have hne : ∀ i ∈ items m.base m.layers, i.key.den ρ1 ≠ key.den ρ1 := by
            intro i hi e
            have hiw : i.within (st.next + 1) := by
              have := items_below hm.within.base hwl i hi
              exact Item.within_mono (Nat.le_succ _) this
            rw [isUnknown, den_andAll, List.all_eq_true] at hun
            have := hun _ (List.mem_map.2 ⟨i, hi, rfl⟩)
            rw [E.den_congr hext.agree _ hiw.1, E.den_congr hext.agree _ hitem.1] at e
            simp [B.den, den_eq, e] at this
            exact this rfl
          refine hbsd (fun inv hinv => ?_) b' hb'
          have hu : Untouched ρ1 m.layers (key.den ρ1) := by
            intro l hl i hi e
            obtain ⟨j, hj, ej⟩ := items_has_key (base := m.base) (.inr ⟨l, hl, i, hi, rfl⟩)
            exact hne j hj (by rw [ej ρ1]; exact e)
          have hw : W obj (key.den ρ1) = (item.value.den ρ1, item.present.den ρ1) := by
            rw [hval, ← hkey, ← hcc, content_untouched hu]
          have := hd0.invs obj hL inv hinv (key.den ρ1) fun b hb'' e => by
            obtain ⟨j, hj, ej⟩ := items_has_key (ls := m.layers) (.inl ⟨b, hb'', rfl⟩)
            exact hne j hj (by rw [ej ρ1]; exact e)
          rw [hw] at this
          exact this
    · rw [List.mem_singleton.1 hx]
      exact ⟨hbw, hbd⟩
  · by_cases e : o = obj
    · subst e; rw [hmapo]; exact hsl
    · rw [hmaps o e]
      cases hLo : L o with
      | false => rw [hoth o e hLo]; exact rfl
      | true => rw [hext.cross.read o hLo, h.read o hLo]; exact rfl
  · by_cases e : o = obj
    · subst e; rw [hmapo]; exact ⟨rfl, rfl, rfl⟩
    · rw [hmaps o e, hoth o e hLo]; exact ⟨rfl, rfl, rfl⟩
  · rw [hmapo]; rfl

/-- A read of the newest version of a map whose invariants may read other maps. -/
theorem get_cross (L : Nat → Bool) (fuel : Nat) {st : State} {W : Nat → Contents} {ρ : Env} (h : DescribesCross L st W ρ) (obj : Nat) (hL : L obj = false) {key : E}
    (hk : key.within st.next) :
    ∃ r st' ρ', get (fuel + 2) st obj none key none (.lit true) = some (r, st') ∧ ReadC L st W ρ obj key r st' ρ' := by
  have hm := h.mapOk hL
  have htouch : ∀ k : Nat, (Untouched ρ (st.maps obj).layers k → (∃ b ∈ (st.maps obj).base, b.key.den ρ = k) ∨ (W obj k).2 = false) →
      (∃ b ∈ (st.maps obj).base, b.key.den ρ = k) ∨ (W obj k).2 = false := by
    intro k hu
    by_cases ht : Untouched ρ (st.maps obj).layers k
    · exact hu ht
    · simp only [Untouched, not_forall, not_not] at ht
      obtain ⟨l, hl, i, hi, e⟩ := ht
      rcases hm.touched l hl i hi with ⟨b, hb', e'⟩ | e'
      · exact .inl ⟨b, hb', e'.trans e⟩
      · rw [e] at e'; exact .inr e'
  have hcont : st.contentAt W ρ obj none = content ρ (W obj) (st.maps obj).layers := rfl
  unfold get
  simp only [show skip (st.maps obj) none = 0 from rfl, List.drop_zero]
  split
  · rename_i hemp
    have hlen := isEmpty_eq hemp ρ
    obtain ⟨S, hS, hcard, -⟩ := hm.length 0
    have hle : lengthOf { st.maps obj with invs := [] } (st.maps obj).layers = lengthOf (st.maps obj) (st.maps obj).layers := lengthOf_noInvs _ _
    have hcard : (0 : Nat) = S.card := by
      rw [← hlen, ← hle]; exact hcard
    have hSe : S = ∅ := Finset.card_eq_zero.1 hcard.symm
    have habs : ∀ k, (content ρ (W obj) (st.maps obj).layers k).2 = false := by
      intro k
      cases hp : (content ρ (W obj) (st.maps obj).layers k).2 with
      | false => rfl
      | true => have := (hS k).2 hp; rw [hSe] at this; simp at this
    have ha : Agree st.next ρ ρ := Agree.refl _ _
    refine ⟨_, _, ρ, rfl, ⟨ha, Nat.le_succ _, h.fresh (Nat.le_succ _) ha, ⟨Nat.lt_succ_self _, trivial⟩, ?_, fun hp => ?_,
      fun _ => rfl, fun _ _ => rfl, fun _ _ => rfl, fun _ _ => rfl, fun _ _ => ?_⟩⟩
    · rw [hcont, habs]; rfl
    · rw [hcont, habs] at hp; simp at hp
    · apply htouch
      intro hu
      right
      rw [← content_untouched (w := W obj) hu]; exact habs _
  · have hce := known_eq (st.maps obj).base (st.maps obj).layers hm.caches
    set k := known (st.maps obj).base (st.maps obj).layers with hkd
    set st1 := st.setMap obj ((st.maps obj).setLower 0 k.2) with hst1
    have hd1 : DescribesCross L st1 W ρ := h.setMap hL (hm.setLower (d := 0) hce.2.1 hce.2.2) rfl (fun b hb => hb)
      (.inr (SameLayers.setLower (ls := (st.maps obj).layers) (d := 0) hce.2.2))
    have hsl : SameLayers ((st.maps obj).setLower 0 k.2).layers (st.maps obj).layers := SameLayers.setLower (ls := (st.maps obj).layers) (d := 0) hce.2.2
    have hmap1 : st1.maps obj = (st.maps obj).setLower 0 k.2 := setMap_same _ _ _
    have hlay : ∀ o, SameLayers (st1.maps o).layers (st.maps o).layers := by
      intro o
      by_cases ho : o = obj
      · subst ho; rw [hmap1]; exact hsl
      · rw [hst1, setMap_other _ ho]; exact rfl
    have hothers : ∀ o, (st1.maps o).baseLength = (st.maps o).baseLength ∧ (st1.maps o).unknown = (st.maps o).unknown ∧
        (st1.maps o).base = (st.maps o).base ∧ (st1.maps o).invs = (st.maps o).invs := by
      intro o
      by_cases ho : o = obj
      · subst ho; rw [hmap1]; exact ⟨rfl, rfl, rfl, rfl⟩
      · rw [hst1, setMap_other _ ho]; exact ⟨rfl, rfl, rfl, rfl⟩
    have hitemsok := items_ok hm.distinct hm.base
    cases hmatch : exactMatch st1.constraints key (k.1 ++ [(st.maps obj).unknown]) (.lit true) with
    | some i =>
      obtain ⟨hi, hie⟩ := exactMatch_sound hmatch
      have hie := hie ρ h.plain.sat rfl
      rw [hce.1] at hi
      have hw : i.within st.next := by
        rcases List.mem_append.1 hi with hi | hi
        · exact items_below hm.within.base (fun l hl => (hm.within.layers l hl).2) i hi
        · rw [List.mem_singleton.1 hi]; exact hm.within.unknown
      have hok : i.ok ρ (content ρ (W obj) (st.maps obj).layers) := by
        rcases List.mem_append.1 hi with hi | hi
        · exact hitemsok i hi
        · rw [List.mem_singleton.1 hi]
          unfold Item.ok
          rw [content_untouched hm.unknownKey]; exact hm.unknown
      refine ⟨_, _, ρ, rfl, ⟨Agree.refl _ _, Nat.le_refl _, hd1, ⟨hw.2.1, hw.2.2⟩, ?_, fun _ => ?_,
        hlay, fun o _ => (hothers o).1, fun o _ => (hothers o).2.1, fun o _ => (hothers o).2.2.2, fun _ hne => ?_⟩⟩
      · rw [hcont, hie, hok]
      · rw [hcont, hie, hok]
      · rw [(hothers obj).2.2.1]
        apply htouch
        intro hu
        left
        rcases List.mem_append.1 hi with hi | hi
        · rcases items_key hi with ⟨b, hb', eb⟩ | ⟨l, hl, j, hj, ej⟩
          · exact ⟨b, hb', by rw [eb, hie]⟩
          · exact absurd (by rw [ej, hie]) (hu l hl j hj)
        · rw [List.mem_singleton.1 hi] at hie; exact absurd hie hne
    | none =>
      obtain ⟨r, st', ρ', h1, ha, hn, hd', hw1, hw2, hr, hl', hbu, ⟨i, hik, hbi⟩⟩ := getNew_cross L fuel hd1 obj hL hk
      have hit : items (st1.maps obj).base (st1.maps obj).layers = k.1 := by
        rw [hce.1, (hothers obj).2.2.1, (hlay obj).items]
      rw [hit] at h1
      rw [(hlay obj).content] at hr
      refine ⟨r, st', ρ', h1, ⟨ha, hn, hd', ⟨hw1, hw2⟩, ?_, fun _ => ?_, fun o => (hl' o).trans (hlay o), fun o ho => (hbu o ho).1.trans (hothers o).1,
        fun o ho => (hbu o ho).2.1.trans (hothers o).2.1, fun o ho => (hbu o ho).2.2.trans (hothers o).2.2.2, fun _ _ => .inl ⟨i, by rw [hbi]; simp, by rw [hik]⟩⟩⟩
      · exact congrArg Prod.snd hr
      · exact congrArg Prod.fst hr

/-- A read of the newest version of any of the maps. -/
theorem get_any (L : Nat → Bool) (fuel : Nat) {st : State} {W : Nat → Contents} {ρ : Env} (h : DescribesCross L st W ρ) (obj : Nat) {key : E} (hk : key.within st.next) :
    ∃ r st' ρ', get (fuel + 2) st obj none key none (.lit true) = some (r, st') ∧ ReadC L st W ρ obj key r st' ρ' := by
  cases hL : L obj with
  | false => exact get_cross L fuel h obj hL hk
  | true =>
    obtain ⟨r, st', ρ', h1, h2, h3, h4, h5⟩ := leaf_get L (fuel + 1) h obj hL none (key := key) (hint := none) (cond := .lit true) hk (by simp) trivial (by simp)
    have hcont : st.contentAt W ρ obj none = W obj := by
      show content ρ (W obj) (st.maps obj).layers = _
      rw [h.read obj hL]; rfl
    refine ⟨r, st', ρ', h1, ⟨h2.agree, h2.next, h2.cross, ⟨h3, h4⟩, ?_, fun _ => ?_, fun o => ?_, fun o ho => by rw [h2.maps o ho], fun o ho => by rw [h2.maps o ho],
      fun o ho => by rw [h2.maps o ho],
      fun e => by rw [hL] at e; cases e⟩⟩
    · rw [hcont]; exact (h5 rfl).2
    · rw [hcont]; exact (h5 rfl).1
    · cases hLo : L o with
      | false => rw [h2.maps o hLo]; exact rfl
      | true => rw [h2.cross.read o hLo, h.read o hLo]; exact rfl

/-- The update left a state that describes the same world, where the map has one more version with the given contents, and the newest versions of the other maps are as before. -/
structure UpdatedC (L : Nat → Bool) (st : State) (W : Nat → Contents) (ρ : Env) (obj : Nat) (k : Nat) (v : Nat × Bool → Prop) (st' : State) (ρ' : Env) : Prop where
  agree : Agree st.next ρ ρ'
  next : st.next ≤ st'.next
  cross : DescribesCross L st' W ρ'
  newest : ∃ x, v x ∧ st'.contentAt W ρ' obj none = Function.update (st.contentAt W ρ obj none) k x
  layers : ∀ o, o ≠ obj → SameLayers (st'.maps o).layers (st.maps o).layers

/-- The common part of `set` and `remove`. -/
theorem layer_cross {L : Nat → Bool} {st : State} {W : Nat → Contents} {ρ : Env} {obj : Nat} (hL : L obj = false) {key : E} {r : E × B} {st1 st2 : State} {ρ1 : Env}
    (h : DescribesCross L st W ρ) (hgd : ∀ inv ∈ (st2.maps obj).invs, Guarded st2.next L inv) (hr : ReadC L st W ρ obj key r st1 ρ1) (hk : key.within st.next)
    (hu : key.den ρ ≠ (st.maps obj).unknown.key.den ρ) (hf : flattens (st.maps obj).layers key = false)
    (hn2 : st1.next ≤ st2.next) (hd2 : DescribesCross L st2 W ρ1) (hm2 : st2.maps = st1.maps)
    {value : E} {present : B} {change : E} (hv : value.within st2.next) (hp : present.within st2.next) (hc : change.within st2.next)
    (hlen : ∀ f : Contents, f = content ρ (W obj) (st.maps obj).layers → LenOk ρ1 f (lengthOf (st.maps obj) (st.maps obj).layers) →
      LenOk ρ1 (Function.update f (key.den ρ) (value.den ρ1, present.den ρ1)) ((lengthOf (st.maps obj) (st.maps obj).layers).add change)) :
    UpdatedC L st W ρ obj (key.den ρ) (fun x => x = (value.den ρ1, present.den ρ1))
      (st2.setMap obj (withItemLayer (st2.maps obj) ⟨key, value, present⟩ change)) ρ1 := by
  have hnext : st.next ≤ st2.next := hr.next.trans hn2
  have hkd : key.den ρ1 = key.den ρ := (E.den_congr hr.agree key hk).symm
  have hsl : SameLayers (st2.maps obj).layers (st.maps obj).layers := by rw [hm2]; exact hr.layers obj
  have hf2 : flattens (st2.maps obj).layers key = false := by rw [flattens_same hsl]; exact hf
  have hw : withItemLayer (st2.maps obj) ⟨key, value, present⟩ change =
      { st2.maps obj with layers := ⟨[⟨key, value, present⟩], (lengthOf (st2.maps obj) (st2.maps obj).layers).add change, (0, [])⟩ :: (st2.maps obj).layers } := by
    simp [withItemLayer, hf2]
  have hbl : (st2.maps obj).baseLength = (st.maps obj).baseLength := by rw [hm2]; exact hr.length obj hL
  have hleneq : lengthOf (st2.maps obj) (st2.maps obj).layers = lengthOf (st.maps obj) (st.maps obj).layers := hsl.lengthOf hbl
  have hm := hd2.mapOk hL
  have hm0 := h.mapOk hL
  have hcont : content ρ1 (W obj) (st2.maps obj).layers = content ρ (W obj) (st.maps obj).layers := by
    rw [hsl.content]
    exact (content_congr hr.agree _ fun l hl => (hm0.within.layers l hl).2).symm
  have hun2 : (st2.maps obj).unknown = (st.maps obj).unknown := by rw [hm2]; exact hr.unknown obj hL
  have hkw : key.within st2.next := E.within_mono hnext _ hk
  have hlw : (lengthOf (st2.maps obj) (st2.maps obj).layers).within st2.next := by
    have := lengthOf_within hm.within 0
    rw [List.drop_zero] at this
    rw [← lengthOf_noInvs]; exact this
  have hml : MapOk st2.next ρ1 (W obj) { withItemLayer (st2.maps obj) ⟨key, value, present⟩ change with invs := [] } := by
    rw [hw]
    refine hm.addLayer (item := ⟨key, value, present⟩) ⟨hkw, hv, hp⟩ ⟨hlw, hc⟩ ?_ ?_ ?_
    · show (st2.maps obj).unknown.key.den ρ1 ≠ key.den ρ1
      rw [hun2, hkd, ← E.den_congr hr.agree _ hm0.within.unknown.1]; exact Ne.symm hu
    · rcases hr.touch hL hu with ⟨b, hb, e⟩ | e
      · exact .inl ⟨b, by rw [hm2]; exact hb, e⟩
      · refine .inr ?_
        show (W obj (key.den ρ1)).2 = false
        rw [hkd]; exact e
    · rw [override_single]
      show LenOk ρ1 (Function.update (content ρ1 (W obj) (st2.maps obj).layers) (key.den ρ1) (value.den ρ1, present.den ρ1)) _
      rw [hleneq, hkd, hcont]
      refine hlen _ rfl ?_
      have := hm.length 0
      simp only [List.drop_zero] at this
      rw [lengthOf_noInvs, hleneq, hcont] at this
      exact this
  have hmaps : (st2.setMap obj (withItemLayer (st2.maps obj) ⟨key, value, present⟩ change)).maps obj =
      withItemLayer (st2.maps obj) ⟨key, value, present⟩ change := setMap_same _ _ _
  refine ⟨hr.agree, hnext, hd2.setMap hL hml (by rw [hw]) (by rw [hw]; exact fun b hb => hb) (.inl hgd), ⟨_, rfl, ?_⟩, fun o ho => ?_⟩
  · unfold State.contentAt
    rw [hmaps, hw]
    show override ρ1 [⟨key, value, present⟩] (content ρ1 (W obj) (st2.maps obj).layers) = _
    rw [override_single, hcont]
    show Function.update (content ρ (W obj) (st.maps obj).layers) (key.den ρ1) (value.den ρ1, present.den ρ1) = _
    rw [hkd]
    rfl
  · rw [setMap_other _ ho, hm2]; exact hr.layers o

theorem set_cross (L : Nat → Bool) (fuel : Nat) {st : State} {W : Nat → Contents} {ρ : Env} (h : DescribesCross L st W ρ) (obj : Nat) (hL : L obj = false) (hgd : ∀ inv ∈ (st.maps obj).invs, Guarded st.next L inv) {key value : E}
    (hk : key.within st.next) (hv : value.within st.next) (hu : key.den ρ ≠ (st.maps obj).unknown.key.den ρ)
    (hf : flattens (st.maps obj).layers key = false) (hroom : HasRoom (st.contentAt W ρ obj none)) :
    ∃ st' ρ', set (fuel + 2) st obj key value = some st' ∧ UpdatedC L st W ρ obj (key.den ρ) (fun x => x = (value.den ρ, true)) st' ρ' := by
  obtain ⟨r, st1, ρ1, hg, hr⟩ := get_cross L fuel h obj hL hk
  obtain ⟨p, hp1, hp2, hp3⟩ := constantOr_some (cs := st1.constraints) hr.cross.plain.sat hr.within.2
  have hvd : value.den ρ1 = value.den ρ := (E.den_congr hr.agree _ hv).symm
  refine ⟨_, ρ1, by unfold set; simp only [hg, hp1]; rfl, ?_⟩
  have := layer_cross hL h (fun inv hi => (hgd inv (by rw [hr.invs obj hL] at hi; exact hi)).mono hr.next) hr hk hu hf (Nat.le_refl _) hr.cross rfl (value := value) (present := .lit true)
    (change := .ite p (.const 0) (.const 1)) (E.within_mono hr.next _ hv) trivial ⟨hp2, trivial, trivial⟩ (by
      intro f hfe hl
      refine lenOk_insert hl ?_ rfl ?_
      · rw [hfe]; exact hroom
      · simp only [E.den, hp3, hr.present, hfe]; rfl)
  rw [hvd] at this
  exact this

theorem remove_cross (L : Nat → Bool) (fuel : Nat) {st : State} {W : Nat → Contents} {ρ : Env} (h : DescribesCross L st W ρ) (obj : Nat) (hL : L obj = false) (hgd : ∀ inv ∈ (st.maps obj).invs, Guarded st.next L inv) {key : E}
    (hk : key.within st.next) (hu : key.den ρ ≠ (st.maps obj).unknown.key.den ρ) (hf : flattens (st.maps obj).layers key = false) :
    ∃ st' ρ', remove (fuel + 2) st obj key = some st' ∧ UpdatedC L st W ρ obj (key.den ρ) (fun x => x.2 = false) st' ρ' := by
  obtain ⟨r, st1, ρ1, hg, hr⟩ := get_cross L fuel h obj hL hk
  refine ⟨_, ρ1, by unfold remove; simp only [hg]; rfl, ?_⟩
  have := layer_cross (st2 := { st1 with next := st1.next + 1 }) hL h (fun inv hi => (hgd inv (by rw [← hr.invs obj hL]; exact hi)).mono (hr.next.trans (Nat.le_succ _))) hr hk hu hf (Nat.le_succ _)
    (hr.cross.fresh (Nat.le_succ _) (Agree.refl _ _)) rfl (value := .var st1.next) (present := .lit false)
    (change := .ite r.2 (.const (2 ^ 64 - 1)) (.const 0)) (Nat.lt_succ_self _) trivial ⟨B.within_mono (Nat.le_succ _) _ hr.within.2, trivial, trivial⟩ (by
      intro f hfe hl
      refine lenOk_erase hl rfl ?_
      simp only [E.den, hr.present, hfe]; rfl)
  obtain ⟨a, b, c, ⟨x, hx, e⟩, f⟩ := this
  exact ⟨a, b, c, ⟨x, by rw [hx]; rfl, e⟩, f⟩

end Verif.Tool.GhostMap
