/- C28: widening invariants. -/
import Verif.Tool.Infer
import Verif.Tool.GhostMapSem
import Verif.Props.GhostMapBase

set_option autoImplicit false

namespace Verif.Tool.GhostMap

mutual
/-- Replacing an expression by one with the same meaning keeps the meaning. -/
theorem E.repl_sem {x : E} {r : IE} {M : Nat → Option Nat → Contents} {ρ : Env} {k v : Nat} {p : Bool} (h : r.sem M ρ k v p = x.den ρ) :
    ∀ e : E, (E.repl x r e).sem M ρ k v p = e.den ρ
  | .const n => by
    unfold E.repl
    split
    · rename_i he; rw [h, ← he]
    · rfl
  | .var i => by
    unfold E.repl
    split
    · rename_i he; rw [h, ← he]
    · rfl
  | .op1 f a => by
    unfold E.repl
    split
    · rename_i he; rw [h, ← he]
    · simp only [IE.sem, E.den, E.repl_sem h a]
  | .op2 f a b => by
    unfold E.repl
    split
    · rename_i he; rw [h, ← he]
    · simp only [IE.sem, E.den, E.repl_sem h a, E.repl_sem h b]
  | .ite c t e => by
    unfold E.repl
    split
    · rename_i he; rw [h, ← he]
    · simp only [IE.sem, E.den, B.repl_sem h c, E.repl_sem h t, E.repl_sem h e]
theorem B.repl_sem {x : E} {r : IE} {M : Nat → Option Nat → Contents} {ρ : Env} {k v : Nat} {p : Bool} (h : r.sem M ρ k v p = x.den ρ) :
    ∀ b : B, (B.repl x r b).sem M ρ k v p = b.den ρ
  | .lit b => rfl
  | .var i => rfl
  | .not a => by simp only [B.repl, IB.sem, B.den, B.repl_sem h a]
  | .and a b => by simp only [B.repl, IB.sem, B.den, B.repl_sem h a, B.repl_sem h b]
  | .or a b => by simp only [B.repl, IB.sem, B.den, B.repl_sem h a, B.repl_sem h b]
  | .iff a b => by simp only [B.repl, IB.sem, B.den, B.repl_sem h a, B.repl_sem h b]
  | .ite c t e => by
    simp only [B.repl, IB.sem, B.den, B.repl_sem h c, B.repl_sem h t, B.repl_sem h e]
    cases c.den ρ <;> simp
  | .rel f a b => by simp only [B.repl, IB.sem, B.den, E.repl_sem h a, E.repl_sem h b]
end

/-- What `find_constraints` finds is true of the expression. -/
theorem findConstraints_sound {cs : List B} {expr : E} {slot : IE} {anc : List Sym} {M : Nat → Option Nat → Contents} {ρ : Env} {k v : Nat} {p : Bool}
    (hs : sat cs ρ) (h : slot.sem M ρ k v p = expr.den ρ) : ∀ c ∈ findConstraints cs expr slot anc, c.sem M ρ k v p = true := by
  intro c hc
  unfold findConstraints at hc
  split at hc
  · rename_i n hn
    simp only [List.mem_singleton] at hc
    subst hc
    unfold constantValue at hn
    split at hn
    · rename_i hex
      simp only [Option.some.injEq] at hn
      have := hex.choose_spec.2 ρ hs
      simp [ieq, IB.sem, IE.sem, h, E.den, ← hn, this]
    · simp at hn
  · rw [List.mem_append] at hc
    rcases hc with hc | hc
    · simp only [List.mem_map, List.mem_filter] at hc
      obtain ⟨b, ⟨hb, -⟩, rfl⟩ := hc
      rw [B.repl_sem h]
      exact hs b hb
    · split at hc
      · simp at hc
      · rename_i w hw
        simp only [List.mem_singleton] at hc
        subst hc
        unfold zeroTop at hw
        split at hw
        · rename_i hex
          simp only [Option.some.injEq] at hw
          obtain ⟨x, hx⟩ := hex.choose_spec
          rw [hw] at hx
          have hlt : x.den ρ % 2 ^ w < 2 ^ w := Nat.mod_lt _ (Nat.two_pow_pos w)
          simp [ieq, IB.sem, IE.sem, h, E.den, hx, concatE, Nat.div_eq_of_lt hlt]
        · simp at hw

theorem iandAll_sem {M : Nat → Option Nat → Contents} {ρ : Env} {k v : Nat} {p : Bool} : ∀ {l : List IB}, (∀ c ∈ l, c.sem M ρ k v p = true) → (iandAll l).sem M ρ k v p = true
  | [], _ => rfl
  | c :: l, h => by
    simp only [iandAll, IB.sem, Bool.and_eq_true]
    exact ⟨h c (by simp), iandAll_sem fun d hd => h d (by simp [hd])⟩

theorem widening_sound {cs : List B} {item : Item} {anc : List Sym} {M : Nat → Option Nat → Contents} {ρ : Env} {p : Bool} (hs : sat cs ρ) :
    (widening cs item anc).sem M ρ (item.key.den ρ) (item.value.den ρ) p = true := by
  refine iandAll_sem fun c hc => ?_
  rw [List.mem_append] at hc
  rcases hc with hc | hc
  · exact findConstraints_sound (slot := .key) hs rfl c hc
  · exact findConstraints_sound (slot := .value) hs rfl c hc

mutual
/-- The invariant reads no map. -/
def IE.still : IE → Prop
  | .key => True
  | .value => True
  | .lift _ => True
  | .op1 _ a => a.still
  | .op2 _ a b => a.still ∧ b.still
  | .ite c t e => c.still ∧ t.still ∧ e.still
  | .mapGet .. => False
def IB.still : IB → Prop
  | .present => True
  | .lift _ => True
  | .not a => a.still
  | .and a b => a.still ∧ b.still
  | .or a b => a.still ∧ b.still
  | .iff a b => a.still ∧ b.still
  | .rel _ a b => a.still ∧ b.still
  | .mapHas .. => False
  | .mapHasValue .. => False
end

mutual
theorem IE.still_of_pure {n : Nat} : ∀ e : IE, e.pure n → e.still
  | .key, _ => trivial
  | .value, _ => trivial
  | .lift _, _ => trivial
  | .op1 _ a, h => IE.still_of_pure a h
  | .op2 _ a b, h => ⟨IE.still_of_pure a h.1, IE.still_of_pure b h.2⟩
  | .ite c t e, h => ⟨IB.still_of_pure c h.1, IE.still_of_pure t h.2.1, IE.still_of_pure e h.2.2⟩
theorem IB.still_of_pure {n : Nat} : ∀ e : IB, e.pure n → e.still
  | .present, _ => trivial
  | .lift _, _ => trivial
  | .not a, h => IB.still_of_pure a h
  | .and a b, h => ⟨IB.still_of_pure a h.1, IB.still_of_pure b h.2⟩
  | .or a b, h => ⟨IB.still_of_pure a h.1, IB.still_of_pure b h.2⟩
  | .iff a b, h => ⟨IB.still_of_pure a h.1, IB.still_of_pure b h.2⟩
  | .rel _ a b, h => ⟨IE.still_of_pure a h.1, IE.still_of_pure b h.2⟩
end

mutual
theorem freezeE_still (st : State) : ∀ e : IE, e.still → freezeE st e = e
  | .key, _ => rfl
  | .value, _ => rfl
  | .lift _, _ => rfl
  | .op1 _ a, h => by simp only [freezeE, freezeE_still st a h]
  | .op2 _ a b, h => by simp only [freezeE, freezeE_still st a h.1, freezeE_still st b h.2]
  | .ite c t e, h => by simp only [freezeE, freezeB_still st c h.1, freezeE_still st t h.2.1, freezeE_still st e h.2.2]
theorem freezeB_still (st : State) : ∀ e : IB, e.still → freezeB st e = e
  | .present, _ => rfl
  | .lift _, _ => rfl
  | .not a, h => by simp only [freezeB, freezeB_still st a h]
  | .and a b, h => by simp only [freezeB, freezeB_still st a h.1, freezeB_still st b h.2]
  | .or a b, h => by simp only [freezeB, freezeB_still st a h.1, freezeB_still st b h.2]
  | .iff a b, h => by simp only [freezeB, freezeB_still st a h.1, freezeB_still st b h.2]
  | .rel _ a b, h => by simp only [freezeB, freezeE_still st a h.1, freezeE_still st b h.2]
end

mutual
/-- Evaluating an expression that reads no map. -/
theorem evalE_still (g : GetFn) (item : Item) (cond : B) (st : State) :
    ∀ e : IE, e.still → ∃ r : E, evalE g item cond st e = some (r, st) ∧
      ∀ M ρ, r.den ρ = e.sem M ρ (item.key.den ρ) (item.value.den ρ) (item.present.den ρ)
  | .key, _ => ⟨_, rfl, fun _ _ => rfl⟩
  | .value, _ => ⟨_, rfl, fun _ _ => rfl⟩
  | .lift e, hb => ⟨_, rfl, fun _ _ => rfl⟩
  | .op1 f a, hb => by
    obtain ⟨r, h1, h3⟩ := evalE_still g item cond st a hb
    exact ⟨.op1 f r, by simp [evalE, h1], fun M ρ => by simp [E.den, IE.sem, h3 M ρ]⟩
  | .op2 f a b, hb => by
    obtain ⟨r, h1, h3⟩ := evalE_still g item cond st a hb.1
    obtain ⟨s, g1, g3⟩ := evalE_still g item cond st b hb.2
    exact ⟨.op2 f r s, by simp [evalE, h1, g1], fun M ρ => by simp [E.den, IE.sem, h3 M ρ, g3 M ρ]⟩
  | .ite c t e, hb => by
    obtain ⟨q, f1, f3⟩ := evalB_still g item cond st c hb.1
    obtain ⟨r, h1, h3⟩ := evalE_still g item cond st t hb.2.1
    obtain ⟨s, g1, g3⟩ := evalE_still g item cond st e hb.2.2
    exact ⟨.ite q r s, by simp [evalE, f1, h1, g1], fun M ρ => by simp [E.den, IE.sem, f3 M ρ, h3 M ρ, g3 M ρ]⟩
theorem evalB_still (g : GetFn) (item : Item) (cond : B) (st : State) :
    ∀ e : IB, e.still → ∃ r : B, evalB g item cond st e = some (r, st) ∧
      ∀ M ρ, r.den ρ = e.sem M ρ (item.key.den ρ) (item.value.den ρ) (item.present.den ρ)
  | .present, _ => ⟨_, rfl, fun _ _ => rfl⟩
  | .lift b, hb => ⟨_, rfl, fun _ _ => rfl⟩
  | .not a, hb => by
    obtain ⟨r, h1, h3⟩ := evalB_still g item cond st a hb
    exact ⟨.not r, by simp [evalB, h1], fun M ρ => by simp [B.den, IB.sem, h3 M ρ]⟩
  | .and a b, hb => by
    obtain ⟨r, h1, h3⟩ := evalB_still g item cond st a hb.1
    obtain ⟨s, g1, g3⟩ := evalB_still g item cond st b hb.2
    exact ⟨.and r s, by simp [evalB, h1, g1], fun M ρ => by simp [B.den, IB.sem, h3 M ρ, g3 M ρ]⟩
  | .or a b, hb => by
    obtain ⟨r, h1, h3⟩ := evalB_still g item cond st a hb.1
    obtain ⟨s, g1, g3⟩ := evalB_still g item cond st b hb.2
    exact ⟨.or r s, by simp [evalB, h1, g1], fun M ρ => by simp [B.den, IB.sem, h3 M ρ, g3 M ρ]⟩
  | .iff a b, hb => by
    obtain ⟨r, h1, h3⟩ := evalB_still g item cond st a hb.1
    obtain ⟨s, g1, g3⟩ := evalB_still g item cond st b hb.2
    exact ⟨.iff r s, by simp [evalB, h1, g1], fun M ρ => by simp [B.den, IB.sem, h3 M ρ, g3 M ρ]⟩
  | .rel f a b, hb => by
    obtain ⟨r, h1, h3⟩ := evalE_still g item cond st a hb.1
    obtain ⟨s, g1, g3⟩ := evalE_still g item cond st b hb.2
    exact ⟨.rel f r s, by simp [evalB, h1, g1], fun M ρ => by simp [B.den, IB.sem, h3 M ρ, g3 M ρ]⟩
end

mutual
theorem E.repl_still {x : E} {r : IE} (h : r.still) : ∀ e : E, (E.repl x r e).still
  | .const n => by unfold E.repl; split; exacts [h, trivial]
  | .var i => by unfold E.repl; split; exacts [h, trivial]
  | .op1 f a => by unfold E.repl; split; exacts [h, E.repl_still h a]
  | .op2 f a b => by unfold E.repl; split; exacts [h, ⟨E.repl_still h a, E.repl_still h b⟩]
  | .ite c t e => by unfold E.repl; split; exacts [h, ⟨B.repl_still h c, E.repl_still h t, E.repl_still h e⟩]
theorem B.repl_still {x : E} {r : IE} (h : r.still) : ∀ b : B, (B.repl x r b).still
  | .lit _ => trivial
  | .var _ => trivial
  | .not a => B.repl_still h a
  | .and a b => ⟨B.repl_still h a, B.repl_still h b⟩
  | .or a b => ⟨B.repl_still h a, B.repl_still h b⟩
  | .iff a b => ⟨B.repl_still h a, B.repl_still h b⟩
  | .ite c t e => ⟨⟨B.repl_still h c, B.repl_still h t⟩, B.repl_still h c, B.repl_still h e⟩
  | .rel _ a b => ⟨E.repl_still h a, E.repl_still h b⟩
end

theorem findConstraints_still {cs : List B} {expr : E} {slot : IE} {anc : List Sym} (h : slot.still) : ∀ c ∈ findConstraints cs expr slot anc, c.still := by
  intro c hc
  unfold findConstraints at hc
  split at hc
  · simp only [List.mem_singleton] at hc; subst hc; exact ⟨h, trivial⟩
  · rw [List.mem_append] at hc
    rcases hc with hc | hc
    · simp only [List.mem_map, List.mem_filter] at hc
      obtain ⟨b, -, rfl⟩ := hc
      exact B.repl_still h b
    · split at hc
      · simp at hc
      · simp only [List.mem_singleton] at hc; subst hc; exact ⟨h, trivial⟩

theorem iandAll_still : ∀ {l : List IB}, (∀ c ∈ l, c.still) → (iandAll l).still
  | [], _ => trivial
  | c :: _, h => ⟨h c (by simp), iandAll_still fun d hd => h d (by simp [hd])⟩

theorem widening_still {cs : List B} {item : Item} {anc : List Sym} : (widening cs item anc).still := by
  refine iandAll_still fun c hc => ?_
  rw [List.mem_append] at hc
  rcases hc with hc | hc
  · exact findConstraints_still (slot := .key) trivial c hc
  · exact findConstraints_still (slot := .value) trivial c hc

/-- One invariant says no more than another. -/
def Weaker (new old : IB) : Prop := ∀ M ρ k v p, old.sem M ρ k v p = true → new.sem M ρ k v p = true

theorem Weaker.refl (a : IB) : Weaker a a := fun _ _ _ _ _ h => h
theorem Weaker.trans {a b c : IB} (h : Weaker a b) (h' : Weaker b c) : Weaker a c := fun M ρ k v p hc => h M ρ k v p (h' M ρ k v p hc)
theorem Weaker.or (a b : IB) : Weaker (.or a b) a := fun M ρ k v p h => by simp [IB.sem, h]

/-- An item satisfies an invariant wherever the constraints hold, or is absent. -/
def Complies (cs : List B) (item : Item) (inv : IB) : Prop :=
  ∀ M ρ, sat cs ρ → item.present.den ρ = true → inv.sem M ρ (item.key.den ρ) (item.value.den ρ) (item.present.den ρ) = true

theorem Complies.weaker {cs : List B} {item : Item} {a b : IB} (h : Complies cs item b) (hw : Weaker a b) : Complies cs item a :=
  fun M ρ hs hp => hw M ρ _ _ _ (h M ρ hs hp)

theorem flattenItems_weaker {fuel : Nat} {anc : List Sym} : ∀ {items : List Item} {conj conj' : IB} {ch ch' : Bool} {st st' : State},
    flattenItems fuel anc conj ch st items = some (conj', ch', st') → Weaker conj' conj ∧ (ch' = ch ∧ conj' = conj ∨ ch' = true)
  | [], conj, conj', ch, ch', st, st', h => by
    simp only [flattenItems, Option.some.injEq, Prod.mk.injEq] at h
    obtain ⟨rfl, rfl, -⟩ := h
    exact ⟨Weaker.refl _, .inl ⟨rfl, rfl⟩⟩
  | item :: items, conj, conj', ch, ch', st, st', h => by
    unfold flattenItems at h
    split at h
    · simp at h
    · split at h
      · exact flattenItems_weaker h
      · obtain ⟨g1, g2⟩ := flattenItems_weaker h
        refine ⟨g1.trans (Weaker.or _ _), .inr ?_⟩
        rcases g2 with g2 | g2
        · exact g2.1
        · exact g2

theorem flattenStates_weaker {fuel : Nat} {anc : List Sym} {obj : Nat} : ∀ {sts : List State} {conj conj' : IB} {ch ch' : Bool} {sts' : List State},
    flattenStates fuel anc obj conj ch sts = some (conj', ch', sts') → Weaker conj' conj ∧ (ch' = ch ∧ conj' = conj ∨ ch' = true)
  | [], conj, conj', ch, ch', sts', h => by
    simp only [flattenStates, Option.some.injEq, Prod.mk.injEq] at h
    obtain ⟨rfl, rfl, -⟩ := h
    exact ⟨Weaker.refl _, .inl ⟨rfl, rfl⟩⟩
  | st :: sts, conj, conj', ch, ch', sts', h => by
    unfold flattenStates at h
    split at h
    · simp at h
    · rename_i c1 ch1 st1 h1
      split at h
      · simp at h
      · rename_i c2 ch2 sts2 h2
        simp only [Option.some.injEq, Prod.mk.injEq] at h
        obtain ⟨rfl, rfl, -⟩ := h
        obtain ⟨g1, g2⟩ := flattenItems_weaker h1
        obtain ⟨f1, f2⟩ := flattenStates_weaker h2
        refine ⟨f1.trans g1, ?_⟩
        rcases f2 with ⟨rfl, rfl⟩ | f2
        · exact g2
        · exact .inr f2

theorem flatten_weaker {fuel : Nat} {anc : List Sym} {obj : Nat} : ∀ {conjs conjs' : List IB} {sts sts' : List State} {ch ch' : Bool},
    flatten fuel anc obj conjs ch sts = some (conjs', ch', sts') → List.Forall₂ Weaker conjs' conjs ∧ (ch' = ch ∧ conjs' = conjs ∨ ch' = true)
  | [], conjs', sts, sts', ch, ch', h => by
    simp only [flatten, Option.some.injEq, Prod.mk.injEq] at h
    obtain ⟨rfl, rfl, -⟩ := h
    exact ⟨.nil, .inl ⟨rfl, rfl⟩⟩
  | conj :: conjs, conjs', sts, sts', ch, ch', h => by
    unfold flatten at h
    split at h
    · simp at h
    · rename_i c1 ch1 sts1 h1
      split at h
      · simp at h
      · rename_i c2 ch2 sts2 h2
        simp only [Option.some.injEq, Prod.mk.injEq] at h
        obtain ⟨rfl, rfl, -⟩ := h
        obtain ⟨g1, g2⟩ := flattenStates_weaker h1
        obtain ⟨f1, f2⟩ := flatten_weaker h2
        refine ⟨.cons g1 f1, ?_⟩
        rcases f2 with ⟨rfl, rfl⟩ | f2
        · rcases g2 with ⟨rfl, rfl⟩ | g2
          · exact .inl ⟨rfl, rfl⟩
          · exact .inr g2
        · exact .inr f2

/-- The states are not changed by checking invariants that read no map, every item complies afterwards, and what is reported is whether any did not before. -/
theorem flattenItems_still {fuel : Nat} {anc : List Sym} {st : State} : ∀ (items : List Item) {conj : IB} (ch : Bool), conj.still →
    ∃ conj' ch', flattenItems fuel anc conj ch st items = some (conj', ch', st) ∧ conj'.still ∧ (∀ item ∈ items, Complies st.constraints item conj') ∧
      (ch' = false ↔ ch = false ∧ ∀ item ∈ items, Complies st.constraints item conj)
  | [], conj, ch, hs => ⟨conj, ch, rfl, hs, by simp, by simp⟩
  | item :: items, conj, ch, hs => by
    obtain ⟨b, h1, h2⟩ := evalB_still (get fuel) item (.and item.present (.lit true)) st conj hs
    unfold flattenItems
    have ha : applyInv (get fuel) st (freezeB st conj) item (.lit true) = some (b, st) := by unfold applyInv; rw [freezeB_still st conj hs]; exact h1
    rw [ha]
    simp only
    have hiff : definitely st.constraints (implies item.present b) = true ↔ Complies st.constraints item conj := by
      unfold definitely
      simp only [decide_eq_true_eq]
      constructor
      · intro h M ρ hs hp
        have := (den_implies ρ _ _).1 (h ρ hs) hp
        rw [h2 M ρ] at this
        exact this
      · intro h ρ hs
        rw [den_implies]
        intro hp
        rw [h2 noMaps ρ]
        exact h noMaps ρ hs hp
    split
    · rename_i hd
      have hc := hiff.1 hd
      obtain ⟨conj', ch', g1, g2, g3, g4⟩ := flattenItems_still items ch hs
      refine ⟨conj', ch', g1, g2, ?_, ?_⟩
      · intro i hi
        rcases List.mem_cons.1 hi with rfl | hi
        · exact hc.weaker (flattenItems_weaker g1).1
        · exact g3 i hi
      · rw [g4]
        simp only [List.mem_cons, forall_eq_or_imp]
        exact ⟨fun h => ⟨h.1, hc, h.2⟩, fun h => ⟨h.1, h.2.2⟩⟩
    · rename_i hd
      have hc : ¬ Complies st.constraints item conj := fun h => hd (hiff.2 h)
      obtain ⟨conj', ch', g1, g2, g3, g4⟩ := flattenItems_still items (conj := .or conj (widening st.constraints item anc)) true ⟨hs, widening_still⟩
      refine ⟨conj', ch', g1, g2, ?_, ?_⟩
      · intro i hi
        rcases List.mem_cons.1 hi with rfl | hi
        · refine Complies.weaker (fun M ρ hs hp => ?_) (flattenItems_weaker g1).1
          simp only [IB.sem, Bool.or_eq_true]
          exact .inr (widening_sound hs)
        · exact g3 i hi
      · rw [g4]
        simp only [List.mem_cons, forall_eq_or_imp]
        exact ⟨fun h => by simp at h, fun h => absurd h.2.1 hc⟩

theorem flattenStates_still {fuel : Nat} {anc : List Sym} {obj : Nat} : ∀ (sts : List State) {conj : IB} (ch : Bool), conj.still →
    ∃ conj' ch', flattenStates fuel anc obj conj ch sts = some (conj', ch', sts) ∧ conj'.still ∧
      (∀ st ∈ sts, ∀ item ∈ setItems (st.maps obj).layers, Complies st.constraints item conj') ∧
      (ch' = false ↔ ch = false ∧ ∀ st ∈ sts, ∀ item ∈ setItems (st.maps obj).layers, Complies st.constraints item conj)
  | [], conj, ch, hs => ⟨conj, ch, rfl, hs, by simp, by simp⟩
  | st :: sts, conj, ch, hs => by
    obtain ⟨c1, ch1, h1, h2, h3, h4⟩ := flattenItems_still (fuel := fuel) (anc := anc) (st := st) (setItems (st.maps obj).layers) ch hs
    obtain ⟨c2, ch2, g1, g2, g3, g4⟩ := flattenStates_still (fuel := fuel) (anc := anc) (obj := obj) sts ch1 h2
    refine ⟨c2, ch2, by unfold flattenStates; rw [h1]; simp only; rw [g1], g2, ?_, ?_⟩
    · intro s hs' i hi
      rcases List.mem_cons.1 hs' with rfl | hs'
      · exact (h3 i hi).weaker (flattenStates_weaker g1).1
      · exact g3 s hs' i hi
    · rw [g4]
      simp only [List.mem_cons, forall_eq_or_imp]
      constructor
      · rintro ⟨rfl, h⟩
        have := h4.1 rfl
        rcases (flattenItems_weaker h1).2 with ⟨-, rfl⟩ | h5
        · exact ⟨this.1, this.2, h⟩
        · simp at h5
      · rintro ⟨rfl, h5, h6⟩
        have h7 := h4.2 ⟨rfl, h5⟩
        subst h7
        rcases (flattenItems_weaker h1).2 with ⟨-, rfl⟩ | h8
        · exact ⟨rfl, h6⟩
        · simp at h8

theorem flatten_still {fuel : Nat} {anc : List Sym} {obj : Nat} : ∀ (conjs : List IB) (ch : Bool) (sts : List State), (∀ c ∈ conjs, c.still) →
    ∃ conjs' ch', flatten fuel anc obj conjs ch sts = some (conjs', ch', sts) ∧ (∀ c ∈ conjs', c.still) ∧
      (∀ c ∈ conjs', ∀ st ∈ sts, ∀ item ∈ setItems (st.maps obj).layers, Complies st.constraints item c) ∧
      (ch' = false ↔ ch = false ∧ ∀ c ∈ conjs, ∀ st ∈ sts, ∀ item ∈ setItems (st.maps obj).layers, Complies st.constraints item c)
  | [], ch, sts, _ => ⟨[], ch, rfl, by simp, by simp, by simp⟩
  | conj :: conjs, ch, sts, hs => by
    obtain ⟨c1, ch1, h1, h2, h3, h4⟩ := flattenStates_still (fuel := fuel) (anc := anc) (obj := obj) sts ch (hs conj (by simp))
    obtain ⟨c2, ch2, g1, g2, g3, g4⟩ := flatten_still (fuel := fuel) (anc := anc) (obj := obj) conjs ch1 sts fun c hc => hs c (by simp [hc])
    refine ⟨c1 :: c2, ch2, by unfold flatten; rw [h1]; simp only; rw [g1], ?_, ?_, ?_⟩
    · intro c hc
      rcases List.mem_cons.1 hc with rfl | hc
      · exact h2
      · exact g2 c hc
    · intro c hc
      rcases List.mem_cons.1 hc with rfl | hc
      · exact h3
      · exact g3 c hc
    · rw [g4, h4]
      simp only [List.mem_cons, forall_eq_or_imp, and_assoc]

end Verif.Tool.GhostMap

namespace Verif.Props

open Verif.Tool.GhostMap

/-- C28, weakening: whatever the invariants, the states and the maps they read, an iteration replaces each invariant of a map by one that says no more, and
by itself if no change is reported. -/
theorem C28_weakens (fuel : Nat) (anc : List Sym) (obj : Nat) (conjs conjs' : List IB) (sts sts' : List State) (ch : Bool)
    (h : flatten fuel anc obj conjs false sts = some (conjs', ch, sts')) :
    List.Forall₂ (fun new old => ∀ M ρ k v p, IB.sem M ρ k v p old = true → IB.sem M ρ k v p new = true) conjs' conjs ∧ (ch = false → conjs' = conjs) := by
  obtain ⟨h1, h2⟩ := flatten_weaker h
  refine ⟨h1, fun hc => ?_⟩
  rcases h2 with h2 | h2
  · exact h2.2
  · rw [h2] at hc; simp at hc

/-- C28, covering, for invariants that read no map: afterwards every item set in an explored state satisfies each of the invariants, in every assignment in which the item is
present; and a change is reported exactly if some item did not before. What is missing: invariants that read other maps. -/
theorem C28_covers_partial (fuel : Nat) (anc : List Sym) (obj : Nat) (conjs : List IB) (sts : List State) (hs : ∀ c ∈ conjs, c.still) :
    ∃ conjs' ch, flatten fuel anc obj conjs false sts = some (conjs', ch, sts) ∧
      (∀ c ∈ conjs', ∀ st ∈ sts, ∀ item ∈ setItems (st.maps obj).layers, ∀ M ρ, (∀ b ∈ st.constraints, b.den ρ = true) → item.present.den ρ = true →
        IB.sem M ρ (item.key.den ρ) (item.value.den ρ) true c = true) ∧
      (ch = true ↔ ∃ c ∈ conjs, ∃ st ∈ sts, ∃ item ∈ setItems (st.maps obj).layers, ∃ M ρ, (∀ b ∈ st.constraints, b.den ρ = true) ∧ item.present.den ρ = true ∧
        IB.sem M ρ (item.key.den ρ) (item.value.den ρ) true c = false) := by
  obtain ⟨conjs', ch, h1, h2, h3, h4⟩ := flatten_still (fuel := fuel) (anc := anc) (obj := obj) conjs false sts hs
  refine ⟨conjs', ch, h1, ?_, ?_⟩
  · intro c hc st hst i hi M ρ hsat hp
    have := h3 c hc st hst i hi M ρ hsat hp
    rw [hp] at this
    exact this
  · constructor
    · intro ht
      by_contra hne
      refine absurd (h4.2 ⟨rfl, ?_⟩) (by rw [ht]; simp)
      intro c hc st hst i hi M ρ hsat hp
      by_contra hf
      rw [hp] at hf
      exact hne ⟨c, hc, st, hst, i, hi, M, ρ, hsat, hp, by simpa using hf⟩
    · rintro ⟨c, hc, st, hst, i, hi, M, ρ, hsat, hp, hf⟩
      cases hch : ch with
      | true => rfl
      | false =>
        have := (h4.1 hch).2 c hc st hst i hi M ρ hsat hp
        rw [hp, hf] at this
        simp at this

namespace WidenExample

/-- A map that held nothing, after key 5 was set to 7. -/
def state : State := ⟨[], 2, fun _ => ⟨[.not .present], [], .const 0, ⟨.var 0, .var 1, .var 0⟩, [⟨[⟨.const 5, .const 7, .lit true⟩], .const 1, (0, [])⟩]⟩⟩

theorem state_items : setItems (state.maps 0).layers = [⟨.const 5, .const 7, .lit true⟩] := by simp [state, setItems, transform]

end WidenExample

open WidenExample in
/-- The hypotheses of `C28_weakens` and `C28_covers_partial` can be met: that nothing is present does not hold of the item set, and is replaced by something that does. -/
example : (∀ c ∈ [IB.not .present], c.still) ∧ ∃ conjs', flatten 1 [] 0 [.not .present] false [state] = some (conjs', true, [state]) ∧ conjs' ≠ [.not .present] := by
  have hs : ∀ c ∈ [IB.not .present], c.still := by simp [IB.still]
  refine ⟨hs, ?_⟩
  obtain ⟨conjs', ch, h1, h2, h3⟩ := C28_covers_partial 1 [] 0 _ [state] hs
  have hch : ch = true := h3.2 ⟨.not .present, by simp, state, by simp, _, by rw [state_items]; exact List.mem_singleton.2 rfl, noMaps, ⟨fun _ => 0, fun _ => false⟩, by simp [state], rfl, rfl⟩
  subst hch
  refine ⟨conjs', h1, ?_⟩
  rintro rfl
  have := h2 (.not .present) (by simp) state (by simp) _ (by rw [state_items]; exact List.mem_singleton.2 rfl) noMaps ⟨fun _ => 0, fun _ => false⟩ (by simp [state]) rfl
  simp [IB.sem] at this

end Verif.Props

namespace Verif.Tool.GhostMap

/-- What must be true of the explored states for the length of a map to be left as it is. -/
def LengthKept (prev : Nat → Option (List Nat)) (anc : State) (sts : List State) (obj : Nat) : Prop :=
  (prev obj = none → ∀ st ∈ sts, ∀ ρ, sat st.constraints ρ → (st.length obj).den ρ = (anc.length obj).den ρ) ∧
  (∀ l, prev obj = some l → ∀ other ∈ l, ∀ st ∈ sts, ∀ ρ, sat st.constraints ρ → (st.length obj).den ρ ≤ (st.length other).den ρ)

theorem inferLength_kept {relevant : List Nat} {anc : State} {sts : List State} {obj : Nat} {prev : Nat → Option (List Nat)} :
    (inferLength relevant anc sts obj (prev obj)).1 = false ↔ LengthKept prev anc sts obj := by
  unfold LengthKept
  cases hp : prev obj with
  | none =>
    simp only [inferLength, getLengthInvariants, true_imp_iff, reduceCtorEq, false_imp_iff, implies_true, and_true]
    split
    · rename_i h
      split at h
      · rename_i hall
        simp only [true_iff]
        intro st hst ρ hs
        have := List.all_eq_true.1 hall st hst
        unfold definitely at this
        simp only [decide_eq_true_eq] at this
        simpa [E.eq, B.den] using this ρ hs
      · simp at h
    · rename_i l h
      split at h
      · simp at h
      · rename_i hall
        simp only [Bool.true_eq_false, false_iff]
        intro hk
        refine hall (List.all_eq_true.2 fun st hst => ?_)
        unfold definitely
        simp only [decide_eq_true_eq]
        intro ρ hs
        simpa [E.eq, B.den] using hk st hst ρ hs
  | some l =>
    simp only [inferLength, reduceCtorEq, false_imp_iff, true_and, Option.some.injEq, forall_eq', Bool.not_eq_false', List.all_eq_true]
    refine forall₂_congr fun o ho => forall₂_congr fun st hst => ?_
    unfold definitely lengthInv
    rw [@decide_eq_true_iff _ (Classical.propDecidable _)]
    exact forall₂_congr fun ρ _ => by simp [E.le, B.den]

theorem inferObjs_fixpoint {fuel : Nat} {guess : Guess} {relevant : List Nat} {vars : List Sym} {anc : State} {prev : Nat → Option (List Nat)} {sts : List State} : ∀ {objs : List Nat},
    (∃ fs, inferObjs fuel guess relevant vars anc prev sts objs = some fs ∧ (fs.any fun f => f.2.changed) = false) ↔
      ∀ obj ∈ objs, ∃ f, inferObj fuel guess relevant vars anc prev sts obj = some f ∧ f.changed = false
  | [] => by simp [inferObjs]
  | obj :: objs => by
    simp only [List.mem_cons, forall_eq_or_imp, ← inferObjs_fixpoint (objs := objs), inferObjs]
    cases h1 : inferObj fuel guess relevant vars anc prev sts obj with
    | none => simp
    | some f =>
      cases h2 : inferObjs fuel guess relevant vars anc prev sts objs with
      | none => simp
      | some fs => simp only [Option.some.injEq, exists_eq_left', List.any_cons, Bool.or_eq_false_iff]

theorem inferObj_unchanged {fuel : Nat} {guess : Guess} {relevant : List Nat} {vars : List Sym} {anc : State} {prev : Nat → Option (List Nat)} {sts : List State} {obj : Nat}
    (hs : ∀ c ∈ (anc.maps obj).invs, c.still) :
    (∃ f, inferObj fuel guess relevant vars anc prev sts obj = some f ∧ f.changed = false) ↔
      (∀ c ∈ (anc.maps obj).invs, ∀ st ∈ sts, ∀ item ∈ setItems (st.maps obj).layers, Complies st.constraints item c) ∧ LengthKept prev anc sts obj := by
  obtain ⟨conjs', ch, h1, h2, h3, h4⟩ := flatten_still (fuel := fuel) (anc := vars) (obj := obj) (anc.maps obj).invs false sts hs
  simp only [true_and] at h4
  rw [← h4, ← inferLength_kept (relevant := relevant)]
  unfold inferObj
  rw [h1]
  simp only
  cases ch with
  | false => simp
  | true =>
    simp only [if_true, Bool.true_eq_false, false_and, iff_false]
    rintro ⟨f, hf, hc⟩
    split at hf
    · simp at hf
    · simp only [Option.some.injEq] at hf
      subst hf
      simp at hc

end Verif.Tool.GhostMap

namespace Verif.Props

open Verif.Tool.GhostMap

/-- C28, stopping, for invariants that read no map: the loop stops exactly if every item set in an explored state satisfies the invariants of its map wherever it is present, every length that
was never found to change is the one before, and every length relation found earlier holds. Otherwise it goes on, with states about which as much is assumed as was found. -/
theorem C28_stops_partial (fuel : Nat) (guess : Guess) (objs : List Nat) (anc : State) (ancs : List State) (st0 : State) (sts : List State) (prev : Nat → Option (List Nat))
    (hs : ∀ obj ∈ objs, ∀ c ∈ (anc.maps obj).invs, c.still) :
    infer fuel guess objs (anc :: ancs) (st0 :: sts) prev = some .fixpoint ↔
      ∀ obj ∈ objs, (∃ st ∈ st0 :: sts, (st.maps obj).version ≠ (anc.maps obj).version) →
        (∀ c ∈ (anc.maps obj).invs, ∀ st ∈ st0 :: sts, ∀ item ∈ setItems (st.maps obj).layers, ∀ M ρ, (∀ b ∈ st.constraints, b.den ρ = true) → item.present.den ρ = true →
          IB.sem M ρ (item.key.den ρ) (item.value.den ρ) true c = true) ∧
        (prev obj = none → ∀ st ∈ st0 :: sts, ∀ ρ, (∀ b ∈ st.constraints, b.den ρ = true) → (st.length obj).den ρ = (anc.length obj).den ρ) ∧
        (∀ l, prev obj = some l → ∀ other ∈ l, ∀ st ∈ st0 :: sts, ∀ ρ, (∀ b ∈ st.constraints, b.den ρ = true) → (st.length obj).den ρ ≤ (st.length other).den ρ) := by
  have key : infer fuel guess objs (anc :: ancs) (st0 :: sts) prev = some .fixpoint ↔
      ∃ fs, inferObjs fuel guess (relevantObjs objs anc (st0 :: sts)) (getVariables objs (anc :: ancs)) anc prev (st0 :: sts) (relevantObjs objs anc (st0 :: sts)) = some fs ∧
        (fs.any fun f => f.2.changed) = false := by
    simp only [infer]
    split
    · rename_i h; simp [h]
    · rename_i fs h
      rw [h]
      simp only [Option.some.injEq, exists_eq_left']
      split
      · rename_i hc
        rw [hc]
        simp only [Bool.true_eq_false, iff_false]
        intro hn
        split at hn <;> simp at hn
      · rename_i hc
        simp only [Bool.not_eq_true] at hc
        simp [hc]
  rw [key, inferObjs_fixpoint]
  have hrel : ∀ obj, obj ∈ relevantObjs objs anc (st0 :: sts) ↔ obj ∈ objs ∧ ∃ st ∈ st0 :: sts, (st.maps obj).version ≠ (anc.maps obj).version := by
    intro obj
    simp only [relevantObjs, List.mem_filter, List.any_eq_true, State.version, bne_iff_ne]
  simp only [hrel, and_imp]
  refine forall₂_congr fun obj hobj => forall_congr' fun _ => ?_
  rw [inferObj_unchanged (hs obj hobj)]
  refine and_congr (forall₂_congr fun c hc => forall₂_congr fun st hst => forall₂_congr fun i hi => forall₂_congr fun M ρ => forall_congr' fun hsat => ?_) Iff.rfl
  constructor
  · intro h hp
    have := h hp
    rwa [hp] at this
  · intro h hp
    have := h hp
    rwa [hp]

open WidenExample in
/-- The hypotheses of `C28_stops_partial` can be met, and the loop need not stop: from an empty map, a packet sets key 5. -/
example : (∀ obj ∈ [0], ∀ c ∈ (({ state with maps := fun _ => { state.maps 0 with layers := [] } } : State).maps obj).invs, c.still) ∧
    infer 1 (fun _ _ _ => []) [0] [{ state with maps := fun _ => { state.maps 0 with layers := [] } }] [state] (fun _ => none) ≠ some .fixpoint := by
  have hs : ∀ obj ∈ [0], ∀ c ∈ (({ state with maps := fun _ => { state.maps 0 with layers := [] } } : State).maps obj).invs, c.still := by simp [state, IB.still]
  refine ⟨hs, fun h => ?_⟩
  have := ((C28_stops_partial _ _ _ _ _ _ _ _ hs).1 h 0 (by simp) ⟨state, by simp, by simp [state, MapS.version]⟩).1 (.not .present) (by simp [state]) state (by simp) _
    (by rw [state_items]; exact List.mem_singleton.2 rfl) noMaps ⟨fun _ => 0, fun _ => false⟩ (by simp [state]) rfl
  simp [IB.sem] at this

end Verif.Props
