/- C76: guessing relations between maps. -/
import Verif.Tool.Guess
import Verif.Props.Infer
import Verif.Props.InferWiden

set_option autoImplicit false

namespace Verif.Tool.GhostMap

theorem definitely_iff {cs : List B} {b : B} : definitely cs b = true ↔ ∀ ρ, sat cs ρ → b.den ρ = true := by
  simp [definitely]

theorem andAll_den {ρ : Env} : ∀ {l : List B}, (andAll l).den ρ = true ↔ ∀ b ∈ l, b.den ρ = true
  | [] => by simp [andAll, B.den]
  | [b] => by simp [andAll]
  | b :: c :: l => by simp only [andAll, B.den, Bool.and_eq_true, andAll_den (l := c :: l), List.mem_cons, forall_eq_or_imp]

/-- The condition of `filter_present`. -/
def SurelyNew (cs : List B) (seen : List Item) (i : Item) : Prop :=
  ∀ ρ, sat cs ρ → i.present.den ρ = true ∧ ∀ p ∈ seen, i.key.den ρ ≠ p.key.den ρ

theorem surelyNew_iff {cs : List B} {seen : List Item} {i : Item} :
    definitely cs (.and i.present (andAll (seen.map fun p => .not (i.key.eq p.key)))) = true ↔ SurelyNew cs seen i := by
  rw [definitely_iff]
  refine forall_congr' fun ρ => imp_congr_right fun _ => ?_
  simp [B.den, andAll_den, E.eq]

theorem presentFrom_prefix {cs : List B} : ∀ (is seen : List Item), ∃ new, presentFrom cs seen is = seen ++ new ∧ new.Sublist is
  | [], seen => ⟨[], by simp [presentFrom], List.Sublist.refl _⟩
  | i :: is, seen => by
    unfold presentFrom
    split
    · obtain ⟨new, h, hs⟩ := presentFrom_prefix is (seen ++ [i])
      exact ⟨i :: new, by rw [h, List.append_assoc]; rfl, hs.cons_cons i⟩
    · obtain ⟨new, h, hs⟩ := presentFrom_prefix is seen
      exact ⟨new, h, hs.cons i⟩

/-- The items of the set are surely present, and their keys are surely different. -/
def SurelyDistinct (cs : List B) (l : List Item) : Prop :=
  (∀ i ∈ l, ∀ ρ, sat cs ρ → i.present.den ρ = true) ∧ l.Pairwise fun a b => ∀ ρ, sat cs ρ → b.key.den ρ ≠ a.key.den ρ

theorem presentFrom_distinct {cs : List B} : ∀ (is seen : List Item), SurelyDistinct cs seen → SurelyDistinct cs (presentFrom cs seen is)
  | [], _, h => h
  | i :: is, seen, h => by
    unfold presentFrom
    split
    · rename_i hd
      rw [surelyNew_iff] at hd
      refine presentFrom_distinct is _ ⟨?_, ?_⟩
      · intro j hj ρ hs
        rcases List.mem_append.1 hj with hj | hj
        · exact h.1 j hj ρ hs
        · obtain rfl := List.mem_singleton.1 hj
          exact (hd ρ hs).1
      · rw [List.pairwise_append]
        refine ⟨h.2, by simp, fun a ha b hb ρ hs => ?_⟩
        obtain rfl := List.mem_singleton.1 hb
        exact (hd ρ hs).2 a ha
    · exact presentFrom_distinct is seen h

theorem presentFrom_maximal {cs : List B} : ∀ (is seen : List Item) (i : Item), i ∈ is → SurelyNew cs (presentFrom cs seen is) i → i ∈ presentFrom cs seen is
  | j :: is, seen, i, hi, hn => by
    rcases List.mem_cons.1 hi with rfl | hi
    · unfold presentFrom at hn ⊢
      split
      · obtain ⟨new, h, -⟩ := presentFrom_prefix (cs := cs) is (seen ++ [i])
        rw [h]; simp
      · rename_i hd
        rw [if_neg hd] at hn
        obtain ⟨new, h, -⟩ := presentFrom_prefix (cs := cs) is seen
        refine absurd (surelyNew_iff.2 fun ρ hs => ⟨(hn ρ hs).1, fun p hp => (hn ρ hs).2 p ?_⟩) hd
        rw [h]; simp [hp]
    · unfold presentFrom at hn ⊢
      split at hn
      · rename_i hd; rw [if_pos hd]; exact presentFrom_maximal is _ i hi hn
      · rename_i hd; rw [if_neg hd]; exact presentFrom_maximal is _ i hi hn

/-- A function gives, for an item, an expression's value. -/
def Gives (cs : List B) (f : IE) (i : Item) (e : E) : Prop :=
  ∀ M ρ, sat cs ρ → f.sem M ρ (i.key.den ρ) (i.value.den ρ) (i.present.den ρ) = e.den ρ

theorem Sel.slot_sem (sel : Sel) (i : Item) (M : Nat → Option Nat → Contents) (ρ : Env) (p : Bool) :
    sel.slot.sem M ρ (i.key.den ρ) (i.value.den ρ) p = (sel.of i).den ρ := by
  cases sel <;> rfl

theorem Sel.slot_still (sel : Sel) : sel.slot.still := by cases sel <;> trivial

theorem unshift_arith {w low x n : Nat} (hx : x * 2 ^ low < 2 ^ w) :
    ((x * 2 ^ low + 0 % 2 ^ low + n) % 2 ^ w + (2 ^ w - n % 2 ^ w)) % 2 ^ w / 2 ^ low = x := by
  have hp : 0 < 2 ^ w := Nat.two_pow_pos w
  have hn : n % 2 ^ w < 2 ^ w := Nat.mod_lt _ hp
  have e : ((x * 2 ^ low + 0 % 2 ^ low + n) % 2 ^ w + (2 ^ w - n % 2 ^ w)) % 2 ^ w = x * 2 ^ low := by
    rw [Nat.zero_mod, Nat.add_zero, Nat.add_mod (x * 2 ^ low) n, Nat.mod_eq_of_lt hx, Nat.mod_add_mod]
    rw [show x * 2 ^ low + n % 2 ^ w + (2 ^ w - n % 2 ^ w) = x * 2 ^ low + 2 ^ w by omega]
    rw [Nat.add_mod_right, Nat.mod_eq_of_lt hx]
  rw [e, Nat.mul_div_cancel _ (Nat.two_pow_pos low)]

/-- The operands of concatenations with zeroes have no more bits than there is room for: in "(0..x)" and in a sum "(x..0) + n" of `w` bits. -/
def OperandsFit (cs : List B) (w : Nat) (e : E) : Prop :=
  (∀ low x, e = concatE low (.const 0) x → ∀ ρ, sat cs ρ → x.den ρ < 2 ^ low) ∧
  ∀ low x n, e = addW w (concatE low x (.const 0)) n → ∀ ρ, sat cs ρ → x.den ρ * 2 ^ low < 2 ^ w

theorem finderVarious_sound {anc : List Sym} {st : State} {w1 w2 : Nat} {sel1 : Sel} {i : Item} {x2 : E} {f : IE}
    (hfit : OperandsFit st.constraints w1 (sel1.of i)) (h : finderVarious anc st w1 w2 sel1 (sel1.of i) x2 = some f) :
    f.still ∧ Gives st.constraints f i x2 := by
  unfold finderVarious at h
  split at h
  · cases h
  split at h
  · rename_i hd
    obtain rfl := Option.some.inj h
    refine ⟨sel1.slot_still, fun M ρ hs => ?_⟩
    rw [definitely_iff] at hd
    rw [sel1.slot_sem]
    simpa [E.eq, B.den] using hd ρ hs
  split at h
  · obtain rfl := Option.some.inj h
    exact ⟨E.repl_still sel1.slot_still _, fun M ρ hs => E.repl_sem (sel1.slot_sem ..) _⟩
  split at h
  · rename_i g hg
    obtain rfl := Option.some.inj h
    split at hg
    · rename_i w x hz
      split at hg
      · obtain rfl := Option.some.inj hg
        refine ⟨E.repl_still (r := .op1 _ sel1.slot) sel1.slot_still _, fun M ρ hs => E.repl_sem ?_ _⟩
        unfold zeroConcat at hz
        split at hz
        · rename_i hex
          have he := hex.choose_spec
          rw [Option.some.inj hz] at he
          simp only [IE.sem, sel1.slot_sem, he, concatE, E.den, Nat.zero_mul, Nat.zero_add, Nat.mod_mod]
          exact Nat.mod_eq_of_lt (hfit.1 w x he ρ hs)
        · cases hz
      · cases hg
    · cases hg
  split at h
  · cases h
  rename_i low x n hs
  unfold shifted at hs
  split at hs
  swap
  · cases hs
  rename_i hex
  have he := hex.choose_spec.1
  rw [Option.some.inj hs] at he
  have key : ∀ M ρ p, sat st.constraints ρ → (unshift w1 low sel1.slot (.lift n)).sem M ρ (i.key.den ρ) (i.value.den ρ) p = x.den ρ := by
    intro M ρ p hsat
    have hx := hfit.2 low x n he ρ hsat
    simp only [unshift, IE.sem, sel1.slot_sem, he, addW, concatE, E.den]
    exact unshift_arith hx
  split at h
  · obtain rfl := Option.some.inj h
    exact ⟨E.repl_still (r := .op2 _ sel1.slot (.lift n)) ⟨sel1.slot_still, trivial⟩ _, fun M ρ hsat => E.repl_sem (key M ρ _ hsat) _⟩
  split at h
  · rename_i hd
    obtain rfl := Option.some.inj h
    refine ⟨⟨sel1.slot_still, trivial⟩, fun M ρ hsat => ?_⟩
    rw [key M ρ _ hsat]
    rw [definitely_iff] at hd
    have := hd ρ hsat
    simp only [E.eq, B.den, beq_iff_eq] at this
    exact this.symm
  · cases h

theorem tryFinders_sound {s : Search} {st : State} {o1 o2 : Nat} {sel1 sel2 : Sel} {i1 i2 : Item} {f : IE}
    (hfit : OperandsFit st.constraints (s.size o1 sel1) (sel1.of i1)) (h : tryFinders s st o1 o2 sel1 sel2 i1 i2 = some f) :
    f.still ∧ Gives st.constraints f i1 (sel2.of i2) := by
  unfold tryFinders at h
  split at h
  · rename_i g hg
    obtain rfl := Option.some.inj h
    exact finderVarious_sound hfit hg
  split at h
  swap
  · cases h
  unfold finderConstant at h
  split at h
  · cases h
  rw [Option.map_eq_some_iff] at h
  obtain ⟨c, hc, rfl⟩ := h
  refine ⟨trivial, fun M ρ hs => ?_⟩
  unfold constantValue at hc
  split at hc
  · rename_i hex
    have := hex.choose_spec.2 ρ hs
    rw [Option.some.inj hc] at this
    exact this.symm
  · cases hc

theorem candidateValid_sound {fuel : Nat} {st : State} {sel2 : Sel} {f : IE} (hf : f.still) : ∀ {is1 is2 : List Item}, is1.length = is2.length →
    candidateValid fuel st sel2 f is1 is2 = some true → List.Forall₂ (fun i1 i2 => Gives st.constraints f i1 (sel2.of i2)) is1 is2
  | [], [], _, _ => .nil
  | i1 :: is1, i2 :: is2, hl, h => by
    unfold candidateValid at h
    obtain ⟨e, he, hsem⟩ := evalE_still (get fuel) i1 (.lit true) st f hf
    rw [he] at h
    dsimp only at h
    split at h
    · rename_i hd
      refine .cons (fun M ρ hs => ?_) (candidateValid_sound hf (by simpa using hl) h)
      rw [definitely_iff] at hd
      have := hd ρ hs
      simp only [E.eq, B.den, beq_iff_eq] at this
      rw [this, hsem M ρ]
    · simp at h

theorem firstMatch_spec {find : Item → Option IE} : ∀ {l before : List Item} {f : IE} {i : Item} {rest : List Item},
    firstMatch find before l = some (f, i, rest) → find i = some f ∧ (i :: rest).Perm (before ++ l)
  | [], _, _, _, _, h => by simp [firstMatch] at h
  | j :: l, before, f, i, rest, h => by
    unfold firstMatch at h
    split at h
    · rename_i g hg
      simp only [Option.some.injEq, Prod.mk.injEq] at h
      obtain ⟨rfl, rfl, rfl⟩ := h
      exact ⟨hg, List.perm_middle.symm⟩
    · obtain ⟨h1, h2⟩ := firstMatch_spec h
      exact ⟨h1, by simpa using h2⟩

/-- The items of two sets are matched one to one, so that the function gives, for every item of the first, the selected part of its match. -/
def Matched (cs : List B) (f : IE) (sel2 : Sel) (l1 l2 : List Item) : Prop :=
  ∃ l, l.Perm l2 ∧ List.Forall₂ (fun i1 i2 => Gives cs f i1 (sel2.of i2)) l1 l

theorem Matched.perm {cs : List B} {f : IE} {sel2 : Sel} {l1 l1' l2 l2' : List Item} (h : Matched cs f sel2 l1 l2) (h1 : l1'.Perm l1) (h2 : l2.Perm l2') :
    Matched cs f sel2 l1' l2' := by
  obtain ⟨l, hl, hf⟩ := h
  obtain ⟨m, hm, hf'⟩ := List.perm_comp_forall₂ h1 hf
  exact ⟨m, hf'.trans (hl.trans h2), hm⟩

theorem findFrom_sound {fuel : Nat} {s : Search} {o1 o2 : Nat} {sel1 sel2 : Sel} (hord : ∀ l, (s.order l).Perm l) : ∀ {states : List State} {cand : Option IE} {f : IE},
    (∀ st ∈ states, ∀ i ∈ filterPresent st o1, OperandsFit st.constraints (s.size o1 sel1) (sel1.of i)) → (∀ g, cand = some g → g.still) →
    findFrom fuel s o1 o2 sel1 sel2 cand states = some f →
    f.still ∧ (∀ g, cand = some g → f = g) ∧ ∀ st ∈ states, filterPresent st o1 ≠ [] → Matched st.constraints f sel2 (filterPresent st o1) (filterPresent st o2)
  | [], cand, f, _, hc, h => ⟨hc f h, fun g hg => by rw [findFrom] at h; rw [h] at hg; exact Option.some.inj hg, by simp⟩
  | st :: states, cand, f, hfit, hc, h => by
    unfold findFrom at h
    dsimp only at h
    have hfit' : ∀ st ∈ states, ∀ i ∈ filterPresent st o1, OperandsFit st.constraints (s.size o1 sel1) (sel1.of i) := fun t ht => hfit t (List.mem_cons_of_mem _ ht)
    split at h
    · rename_i h0
      obtain ⟨h1, h2, h3⟩ := findFrom_sound hord hfit' hc h
      refine ⟨h1, h2, fun t ht hne => ?_⟩
      rcases List.mem_cons.1 ht with rfl | ht
      · exact absurd (List.eq_nil_of_length_eq_zero h0) hne
      · exact h3 t ht hne
    split at h
    · cases h
    split at h
    · cases h
    have hlen : (filterPresent st o1).length = (filterPresent st o2).length := by omega
    cases cand with
    | none =>
      dsimp only at h
      split at h
      · cases h
      rename_i it1 rest1 hord1
      split at h
      · cases h
      rename_i g it2 rest2 hm
      obtain ⟨hfind, hperm⟩ := firstMatch_spec hm
      have hp1 : (it1 :: rest1).Perm (filterPresent st o1) := hord1 ▸ hord _
      have hp2 : (it2 :: rest2).Perm (filterPresent st o2) := hperm.trans (by simpa using hord _)
      have hmem : it1 ∈ filterPresent st o1 := hp1.mem_iff.1 (by simp)
      obtain ⟨hstill, hgives⟩ := tryFinders_sound (hfit st (by simp) it1 hmem) hfind
      split at h
      · rename_i hv
        obtain ⟨h1, h2, h3⟩ := findFrom_sound hord hfit' (fun g' hg' => by obtain rfl := Option.some.inj hg'; exact hstill) h
        obtain rfl := h2 g rfl
        refine ⟨h1, by simp, fun t ht hne => ?_⟩
        rcases List.mem_cons.1 ht with rfl | ht
        · have hl : (s.order rest1).length = (s.order rest2).length := by
            have := hp1.length_eq; have := hp2.length_eq
            rw [(hord _).length_eq, (hord _).length_eq]
            simp only [List.length_cons] at *; omega
          have hf := candidateValid_sound hstill hl hv
          have : Matched t.constraints f sel2 (it1 :: s.order rest1) (it2 :: s.order rest2) := ⟨_, List.Perm.refl _, .cons hgives hf⟩
          exact this.perm (hp1.symm.trans ((hord rest1).symm.cons it1)) (((hord rest2).cons it2).trans hp2)
        · exact h3 t ht hne
      · cases h
    | some g =>
      dsimp only at h
      split at h
      · rename_i hv
        obtain ⟨h1, h2, h3⟩ := findFrom_sound hord hfit' hc h
        obtain rfl := h2 g rfl
        refine ⟨h1, fun g' hg' => Option.some.inj hg', fun t ht hne => ?_⟩
        rcases List.mem_cons.1 ht with rfl | ht
        · have hl : (s.order (filterPresent t o1)).length = (s.order (filterPresent t o2)).length := by
            rw [(hord _).length_eq, (hord _).length_eq, hlen]
          have hf := candidateValid_sound h1 hl hv
          have : Matched t.constraints f sel2 (s.order (filterPresent t o1)) (s.order (filterPresent t o2)) := ⟨_, List.Perm.refl _, hf⟩
          exact this.perm (hord _).symm (hord _)
        · exact h3 t ht hne
      · cases h

end Verif.Tool.GhostMap

namespace Verif.Tool.GhostMap

theorem filterPresent_sub {st : State} {o : Nat} {i : Item} (h : i ∈ filterPresent st o) : i ∈ setItems (st.maps o).layers := by
  obtain ⟨new, h1, h2⟩ := presentFrom_prefix (cs := st.constraints) (setItems (st.maps o).layers) []
  unfold filterPresent at h
  rw [h1, List.nil_append] at h
  exact h2.mem h

theorem filterPresent_distinct (st : State) (o : Nat) : SurelyDistinct st.constraints (filterPresent st o) :=
  presentFrom_distinct _ _ ⟨by simp, by simp⟩

/-- What a set item says is so, in every world the state describes. -/
theorem setItem_ok {st : State} {W : Nat → Contents} {ρ : Env} (hd : Describes st W ρ) {o : Nat} {i : Item} (h : i ∈ setItems (st.maps o).layers) :
    st.contentAt W ρ o none (i.key.den ρ) = (i.value.den ρ, i.present.den ρ) := by
  rw [setItems_eq] at h
  have hm := hd.maps o
  have := items_ok (w := W o) (base := []) hm.distinct (by simp [BaseOk]) i h
  simpa [State.contentAt, skip, Item.ok] using this

theorem filterPresent_ok {st : State} {W : Nat → Contents} {ρ : Env} (hd : Describes st W ρ) {o : Nat} {i : Item} (h : i ∈ filterPresent st o) :
    st.contentAt W ρ o none (i.key.den ρ) = (i.value.den ρ, true) := by
  rw [setItem_ok hd (filterPresent_sub h), (filterPresent_distinct st o).1 i h ρ hd.sat]

end Verif.Tool.GhostMap

namespace Verif.Props

open Verif.Tool.GhostMap

/-- The items that relations are guessed from are set items that are in the map in every world the state stands for, and their keys are different. An item that was left out is
perhaps not in the map, or perhaps has the key of one of them. -/
theorem C76_present (st : State) (obj : Nat) :
    (∀ i ∈ filterPresent st obj, i ∈ setItems (st.maps obj).layers ∧ ∀ W ρ, Describes st W ρ → st.contentAt W ρ obj none (i.key.den ρ) = (i.value.den ρ, true)) ∧
      ((filterPresent st obj).Pairwise fun a b => ∀ ρ, sat st.constraints ρ → b.key.den ρ ≠ a.key.den ρ) ∧
      ∀ i ∈ setItems (st.maps obj).layers, i ∉ filterPresent st obj →
        ∃ ρ, sat st.constraints ρ ∧ (i.present.den ρ = true → ∃ p ∈ filterPresent st obj, i.key.den ρ = p.key.den ρ) := by
  refine ⟨fun i hi => ⟨filterPresent_sub hi, fun W ρ hd => filterPresent_ok hd hi⟩, (filterPresent_distinct st obj).2, fun i hi hn => ?_⟩
  by_contra hc
  push Not at hc
  exact hn (presentFrom_maximal _ _ i hi fun ρ hs => ⟨(hc ρ hs).1, (hc ρ hs).2⟩)

/-- A function that was found from one map to the keys (or the values) of another fits: in every explored state with such items, the items of the two maps are matched one to one, and under every
assignment that satisfies the state's constraints the function gives, for every item of the first map, the key (or the value) of its match. -/
theorem C76_function (fuel : Nat) (s : Search) (states : List State) (o1 o2 : Nat) (sel1 sel2 : Sel) (f : IE) (hord : ∀ l, (s.order l).Perm l)
    (hfit : ∀ st ∈ states, ∀ i ∈ filterPresent st o1, OperandsFit st.constraints (s.size o1 sel1) (sel1.of i)) (h : findF fuel s states o1 o2 sel1 sel2 = some f) :
    ∀ st ∈ states, filterPresent st o1 ≠ [] → ∃ l, l.Perm (filterPresent st o2) ∧
      List.Forall₂ (fun i1 i2 => ∀ M ρ, (∀ c ∈ st.constraints, c.den ρ = true) →
        f.sem M ρ (i1.key.den ρ) (i1.value.den ρ) true = (match sel2 with | .key => i2.key.den ρ | .value => i2.value.den ρ)) (filterPresent st o1) l := by
  intro st hst hne
  obtain ⟨-, -, h3⟩ := findFrom_sound hord hfit (by simp) h
  obtain ⟨l, hl, hf⟩ := h3 st hst hne
  have hp := (filterPresent_distinct st o1).1
  refine ⟨l, hl, ?_⟩
  rw [List.forall₂_iff_get] at hf ⊢
  refine ⟨hf.1, fun n h1 h2 M ρ hs => ?_⟩
  have := hf.2 n h1 h2 M ρ hs
  rw [hp _ (List.get_mem _ _) ρ hs] at this
  rw [this]
  cases sel2 <;> rfl

namespace GuessAux

theorem mem_triesFor {other : Nat} {fk : IE} {fv : Option IE} {fps : List IB} {p : IB} (h : p ∈ triesFor other fk fv fps) :
    ∃ fp ∈ fps, p = iimplies fp (.mapHas other fk none) ∨ ∃ g, fv = some g ∧ p = iimplies fp (.mapHasValue other fk g none) := by
  unfold triesFor at h
  rw [List.mem_flatMap] at h
  obtain ⟨fp, hfp, h⟩ := h
  refine ⟨fp, hfp, ?_⟩
  rw [List.mem_append, List.mem_singleton] at h
  rcases h with h | h
  · cases fv with
    | none => simp at h
    | some g => exact .inr ⟨g, rfl, List.mem_singleton.1 h⟩
  · exact .inl h

theorem findFk_or {fuel : Nat} {s : Search} {states : List State} {o other : Nat} {f : IE} (h : findFk fuel s states o other = some f) :
    ∃ sel1, findF fuel { s with constants := false } states o other sel1 .key = some f := by
  unfold findFk at h
  split at h
  · rename_i g hg; obtain rfl := Option.some.inj h; exact ⟨_, hg⟩
  · exact ⟨_, h⟩

theorem findFv_or {fuel : Nat} {s : Search} {objs : Objects} {states : List State} {o other : Nat} {f : IE} (h : findFv fuel s objs states o other = some f) :
    ∃ sel1 c, findF fuel { s with constants := c } states o other sel1 .value = some f := by
  unfold findFv at h
  split at h
  · rename_i g hg; obtain rfl := Option.some.inj h; exact ⟨_, _, hg⟩
  · exact ⟨_, _, h⟩

/-- A found function gives the key or value of a present item. -/
theorem matched_item {fuel : Nat} {s : Search} {states : List State} {o1 o2 : Nat} {sel1 sel2 : Sel} {f : IE} (hord : ∀ l, (s.order l).Perm l)
    (hfit : ∀ st ∈ states, ∀ i ∈ filterPresent st o1, OperandsFit st.constraints (s.size o1 sel1) (sel1.of i)) (h : findF fuel s states o1 o2 sel1 sel2 = some f)
    {st : State} (hst : st ∈ states) {i : Item} (hi : i ∈ filterPresent st o1) :
    (filterPresent st o2).length = (filterPresent st o1).length ∧ ∃ j ∈ filterPresent st o2, Gives st.constraints f i (sel2.of j) := by
  obtain ⟨-, -, h3⟩ := findFrom_sound hord hfit (by simp) h
  obtain ⟨l, hl, hf⟩ := h3 st hst (List.ne_nil_of_mem hi)
  refine ⟨by rw [← hl.length_eq, hf.length_eq], ?_⟩
  obtain ⟨n, hn, rfl⟩ := List.getElem_of_mem hi
  have hn' : n < l.length := by rw [← hf.length_eq]; exact hn
  exact ⟨l[n], hl.mem_iff.1 (List.getElem_mem hn'), (List.forall₂_iff_get.1 hf).2 n hn hn'⟩

end GuessAux

open GuessAux in
/-- What is guessed fits what was seen: every relation that is tried says of the items of a map that, under a condition, another map has a key, perhaps with a value. It is true of all items it was
guessed from, in all explored states and all worlds they stand for, if it says nothing of the value, or if there was one item only. Missing: relations that speak of values, guessed from several
items. These may be false of the items, see `C76_value_mismatch`. -/
theorem C76_guess_fits_partial (fuel : Nat) (s : Search) (orderN : List Nat → List Nat) (objs : Objects) (anc : State) (obj : Nat) (relevant : List Nat) (states : List State)
    (hord : ∀ l, (s.order l).Perm l) (hfit : ∀ st ∈ states, ∀ i ∈ filterPresent st obj, ∀ sel, OperandsFit st.constraints (s.size obj sel) (sel.of i)) :
    ∀ tries ∈ realGuess fuel s orderN objs anc obj relevant states, ∃ other ∈ relevant, other ≠ obj ∧ ∀ p ∈ tries, ∃ cond fk,
      (p = iimplies cond (.mapHas other fk none) ∨ ∃ fv, p = iimplies cond (.mapHasValue other fk fv none)) ∧
      ∀ st ∈ states, ∀ i ∈ filterPresent st obj, ∀ W ρ, Describes st W ρ →
        (st.contentAt W ρ other none (fk.sem (st.contentAt W ρ) ρ (i.key.den ρ) (i.value.den ρ) true)).2 = true ∧
        (p = iimplies cond (.mapHas other fk none) ∨ (filterPresent st obj).length = 1 → p.sem (st.contentAt W ρ) ρ (i.key.den ρ) (i.value.den ρ) true = true) := by
  intro tries ht
  unfold realGuess at ht
  split at ht
  · simp at ht
  dsimp only at ht
  split at ht
  · simp at ht
  rw [List.mem_filterMap] at ht
  obtain ⟨other, hrel, ht⟩ := ht
  split at ht
  · cases ht
  rename_i hne
  split at ht
  · cases ht
  split at ht
  · cases ht
  split at ht
  · cases ht
  rename_i fk hfk
  obtain rfl := Option.some.inj ht
  obtain ⟨sel1, hfk⟩ := findFk_or hfk
  refine ⟨other, hrel, hne, fun p hp => ?_⟩
  obtain ⟨cond, -, hp⟩ := mem_triesFor hp
  refine ⟨cond, fk, hp.imp id fun ⟨g, _, h⟩ => ⟨g, h⟩, fun st hst i hi W ρ hd => ?_⟩
  obtain ⟨hlen, j, hj, hgive⟩ := matched_item (s := { s with constants := false }) hord (fun st hst i hi => hfit st hst i hi sel1) hfk hst hi
  have hpres := (filterPresent_distinct st obj).1 i hi ρ hd.sat
  have hk : fk.sem (st.contentAt W ρ) ρ (i.key.den ρ) (i.value.den ρ) true = j.key.den ρ := by
    have := hgive (st.contentAt W ρ) ρ hd.sat
    rwa [hpres] at this
  have hin := filterPresent_ok hd hj
  refine ⟨by rw [hk, hin], ?_⟩
  rcases hp with rfl | ⟨g, hg, rfl⟩
  · intro _
    simp only [iimplies, IB.sem, hk, hin, Bool.or_true]
  · rintro (hc | h1)
    · simp [iimplies] at hc
    · obtain ⟨sel1', c, hfv⟩ := findFv_or hg
      obtain ⟨hlen', j', hj', hgive'⟩ := matched_item (s := { s with constants := c }) hord (fun st hst i hi => hfit st hst i hi sel1') hfv hst hi
      have hv : g.sem (st.contentAt W ρ) ρ (i.key.den ρ) (i.value.den ρ) true = j'.value.den ρ := by
        have := hgive' (st.contentAt W ρ) ρ hd.sat
        rwa [hpres] at this
      rw [h1] at hlen
      obtain ⟨a, ha⟩ := List.length_eq_one_iff.1 hlen
      rw [ha, List.mem_singleton] at hj hj'
      subst hj hj'
      simp only [iimplies, IB.sem, hk, hv, hin, Bool.true_and, beq_self_eq_true, Bool.or_true]

/-- From one item of each map, a function is found in each of these cases, where the parts of the items that it relates have the same size: they are surely equal; the first occurs in the second; the first is "(0..x)" and `x` occurs in the
second; the first is "(x..0) + n", `n` is known from the ancestor, and `x` occurs in the second or surely equals it; and, for values, if constants are tried, whatever the size: the second is a constant. -/
theorem C76_found (fuel : Nat) (s : Search) (st : State) (o1 o2 : Nat) (sel1 sel2 : Sel) (i1 i2 : Item) (hord : ∀ l, (s.order l).Perm l) (h1 : filterPresent st o1 = [i1]) (h2 : filterPresent st o2 = [i2])
    (h : (s.size o1 sel1 = s.size o2 sel2 ∧
        ((∀ ρ, sat st.constraints ρ → (sel1.of i1).den ρ = (sel2.of i2).den ρ) ∨
          E.occurs (sel1.of i1) (sel2.of i2) = true ∨
          (∃ w x, sel1.of i1 = concatE w (.const 0) x ∧ E.occurs x (sel2.of i2) = true) ∨
          ∃ w x n, sel1.of i1 = addW (s.size o1 sel1) (concatE w x (.const 0)) n ∧ (∀ y ∈ n.syms, y ∈ s.ancVars) ∧
            (E.occurs x (sel2.of i2) = true ∨ ∀ ρ, sat st.constraints ρ → (sel2.of i2).den ρ = x.den ρ))) ∨
      (s.constants = true ∧ sel2 = .value ∧ (∃ ρ, sat st.constraints ρ) ∧ ∃ c, ∀ ρ, sat st.constraints ρ → i2.value.den ρ = c)) :
    ∃ f, findF fuel s [st] o1 o2 sel1 sel2 = some f := by
  have hone : ∀ i, s.order [i] = [i] := fun i => List.perm_singleton.1 (hord [i])
  have hnil : s.order [] = [] := List.perm_nil.1 (hord [])
  suffices hf : ∃ f, tryFinders s st o1 o2 sel1 sel2 i1 i2 = some f by
    obtain ⟨f, hf⟩ := hf
    refine ⟨f, ?_⟩
    unfold findF findFrom
    simp only [h1, h2, hone, firstMatch, hf, List.length_cons, List.length_nil]
    simp [hnil, candidateValid, findFrom]
  by_cases hv : ∃ f, finderVarious s.ancVars st (s.size o1 sel1) (s.size o2 sel2) sel1 (sel1.of i1) (sel2.of i2) = some f
  · obtain ⟨f, hf⟩ := hv
    exact ⟨f, by unfold tryFinders; rw [hf]⟩
  rcases h with ⟨hsize, h⟩ | ⟨hc, rfl, hsat, c, hconst⟩
  · refine absurd ?_ hv
    unfold finderVarious
    rw [if_neg (by simp [hsize])]
    split
    · exact ⟨_, rfl⟩
    rename_i hd
    split
    · exact ⟨_, rfl⟩
    rename_i ho
    split
    · exact ⟨_, rfl⟩
    rename_i hz
    rcases h with h | h | ⟨w, x, he, hx⟩ | ⟨w, x, n, he, hn, hx⟩
    · exact absurd (definitely_iff.2 fun ρ hs => by simp [E.eq, B.den, h ρ hs]) hd
    · exact absurd h ho
    · exfalso
      have hex : ∃ p : Nat × E, sel1.of i1 = concatE p.1 (.const 0) p.2 := ⟨(w, x), he⟩
      obtain ⟨q, hq, hqx⟩ : ∃ q : Nat × E, zeroConcat (sel1.of i1) = some q ∧ q.2 = x := by
        refine ⟨hex.choose, by unfold zeroConcat; exact dif_pos hex, ?_⟩
        have := hex.choose_spec
        generalize hex.choose = q at this
        rw [he] at this
        simp only [concatE, E.op2.injEq] at this
        exact this.2.2.symm
      obtain ⟨w', x'⟩ := q
      obtain rfl : x' = x := hqx
      rw [hq] at hz
      simp [hx] at hz
    · have hex : ∃ p : Nat × E × E, sel1.of i1 = addW (s.size o1 sel1) (concatE p.1 p.2.1 (.const 0)) p.2.2 ∧ ∀ y ∈ p.2.2.syms, y ∈ s.ancVars := ⟨(w, x, n), he, hn⟩
      obtain ⟨q, hq, hqx⟩ : ∃ q : Nat × E × E, shifted s.ancVars (s.size o1 sel1) (sel1.of i1) = some q ∧ q.2.1 = x := by
        refine ⟨hex.choose, by unfold shifted; exact dif_pos hex, ?_⟩
        have := hex.choose_spec.1
        generalize hex.choose = q at this
        rw [he] at this
        simp only [addW, concatE, E.op2.injEq] at this
        exact this.2.1.2.1.symm
      obtain ⟨w', x', n'⟩ := q
      obtain rfl : x' = x := hqx
      rw [hq]
      dsimp only
      split
      · exact ⟨_, rfl⟩
      rename_i hox
      rcases hx with hx | hx
      · exact absurd hx hox
      · rw [if_pos (definitely_iff.2 fun ρ hs => by simp [E.eq, B.den, hx ρ hs])]
        exact ⟨_, rfl⟩
  · unfold tryFinders
    cases hfv : finderVarious s.ancVars st (s.size o1 sel1) (s.size o2 .value) sel1 (sel1.of i1) (Sel.value.of i2) with
    | some f => exact ⟨f, rfl⟩
    | none =>
      have hex : ∃ c, (∃ ρ, sat st.constraints ρ) ∧ ∀ ρ, sat st.constraints ρ → i2.value.den ρ = c := ⟨c, hsat, hconst⟩
      refine ⟨.lift (.const hex.choose), ?_⟩
      have hcv : constantValue st.constraints i2.value = some hex.choose := by unfold constantValue; exact dif_pos hex
      simp only [hc, if_true, finderConstant, Sel.of, hcv, Option.map_some]

/-- Without fractions, a relation is tried under the condition that the value is a constant for every constant that is the value of an item the guesses are made from, and without condition unless the map is
an array. -/
theorem C76_conditions_partial (orderN : List Nat → List Nat) (hord : ∀ l, (orderN l).Perm l) (states : List State) (obj : Nat) (isArray : Bool) :
    (∀ st ∈ states, (∃ ρ, sat st.constraints ρ) → ∀ i ∈ filterPresent st obj, ∀ c, (∀ ρ, sat st.constraints ρ → i.value.den ρ = c) →
      ∃ p ∈ findFps orderN none states obj isArray, ∀ M ρ k v b, p.sem M ρ k v b = (v == c)) ∧
    (isArray = false → ∃ p ∈ findFps orderN none states obj isArray, ∀ M ρ k v b, p.sem M ρ k v b = true) := by
  refine ⟨fun st hst hsat i hi c hc => ?_, fun h => ⟨.lift (.lit true), by simp [findFps, h], fun _ _ _ _ _ => rfl⟩⟩
  refine ⟨ieq .value (.lift (.const c)), ?_, fun _ _ _ _ _ => rfl⟩
  unfold findFps
  refine List.mem_append_right _ (List.mem_map.2 ⟨c, (hord _).mem_iff.2 ?_, rfl⟩)
  unfold constantsOf
  rw [List.mem_eraseDups, List.mem_flatMap]
  refine ⟨st, hst, List.mem_filterMap.2 ⟨i, hi, ?_⟩⟩
  have hex : ∃ c, (∃ ρ, sat st.constraints ρ) ∧ ∀ ρ, sat st.constraints ρ → i.value.den ρ = c := ⟨c, hsat, hc⟩
  unfold constantValue
  rw [dif_pos hex]
  obtain ⟨ρ, hρ⟩ := hsat
  rw [← hex.choose_spec.2 ρ hρ, hc ρ hρ]

/-- With fractions, this is false: of all constants that are fractions of the map's items, only one is ever used as the condition, whatever the order. -/
theorem C76_conditions_fractions (orderN : List Nat → List Nat) (fracs : Nat) (states : List State) (obj : Nat) (isArray : Bool) :
    ∃ c, ∀ p ∈ findFps orderN (some fracs) states obj isArray, ∀ M ρ k v b, p.sem M ρ k v b = ((M fracs none k).1 == c) := by
  refine ⟨(orderN (constantsOf states fracs)).getLastD 0, fun p hp M ρ k v b => ?_⟩
  unfold findFps at hp
  rw [List.mem_map] at hp
  obtain ⟨_, _, rfl⟩ := hp
  rfl

namespace GuessExample

/-- Two arrays, in which the elements 1 and 2 were set, to 10 and 20 in the first and to 20 and 10 in the second. -/
def arrayOf (a b : Nat) : MapS :=
  ⟨[], [], .const 0, ⟨.const 3, .const 0, .lit false⟩, [⟨[⟨.const 1, .const a, .lit true⟩, ⟨.const 2, .const b, .lit true⟩], .const 2, (0, [])⟩]⟩
def st : State := ⟨[], 0, fun o => if o = 0 then arrayOf 10 20 else arrayOf 20 10⟩
/-- The same before. -/
def anc : State := ⟨[], 0, fun _ => ⟨[], [], .const 0, ⟨.const 3, .const 0, .lit false⟩, []⟩⟩
/-- Nothing was in the maps. -/
def world : Nat → Contents := fun _ _ => (0, false)
def search : Search := ⟨fun _ _ => 64, [], id, false⟩
def objects : Objects := ⟨fun _ => none, fun _ => false, fun _ => true⟩

theorem sat_nil (ρ : Env) : sat [] ρ := by simp [sat]

theorem arrayOf_items (a b : Nat) : setItems (arrayOf a b).layers = [⟨.const 1, .const a, .lit true⟩, ⟨.const 2, .const b, .lit true⟩] := by
  simp [arrayOf, setItems, transform]

theorem present_arrayOf {s : State} {o a b : Nat} (hc : s.constraints = []) (hm : s.maps o = arrayOf a b) :
    filterPresent s o = [⟨.const 1, .const a, .lit true⟩, ⟨.const 2, .const b, .lit true⟩] := by
  unfold filterPresent
  rw [hc, hm, arrayOf_items]
  unfold presentFrom
  rw [if_pos (surelyNew_iff.2 fun ρ _ => ⟨rfl, by simp⟩)]
  unfold presentFrom
  rw [if_pos (surelyNew_iff.2 fun ρ _ => ⟨rfl, by simp [E.den]⟩)]
  rfl

theorem present0 : filterPresent st 0 = [⟨.const 1, .const 10, .lit true⟩, ⟨.const 2, .const 20, .lit true⟩] := present_arrayOf rfl rfl
theorem present1 : filterPresent st 1 = [⟨.const 1, .const 20, .lit true⟩, ⟨.const 2, .const 10, .lit true⟩] := present_arrayOf rfl rfl

theorem definitely_const {a b : Nat} : definitely [] ((E.const a).eq (.const b)) = decide (a = b) := by
  rw [Bool.eq_iff_iff, definitely_iff]
  simp only [E.eq, B.den, E.den, beq_iff_eq, decide_eq_true_eq]
  exact ⟨fun h => h env0 (sat_nil _), fun h _ _ => h⟩

theorem finder_eq (anc : List Sym) {s : State} (hc : s.constraints = []) (w : Nat) (sel : Sel) (c : Nat) : finderVarious anc s w w sel (.const c) (.const c) = some sel.slot := by
  unfold finderVarious
  rw [if_neg (by simp), hc, definitely_const, if_pos (by simp)]

theorem finder_ne (anc : List Sym) {s : State} (hc : s.constraints = []) (w : Nat) (sel : Sel) {c d : Nat} (h : c ≠ d) : finderVarious anc s w w sel (.const c) (.const d) = none := by
  have hz : zeroConcat (.const c) = none := by
    unfold zeroConcat
    rw [dif_neg]
    rintro ⟨p, hp⟩; simp [concatE] at hp
  have hs : shifted anc w (.const c) = none := by
    unfold shifted
    rw [dif_neg]
    rintro ⟨p, hp, -⟩; simp [addW] at hp
  unfold finderVarious
  rw [if_neg (by simp), hc, definitely_const, if_neg (by simp [h]), if_neg (by simp [E.occurs, Ne.symm h]), hz, hs]

theorem try_eq (s : Search) (hs : s.size = fun _ _ => 64) (o1 o2 : Nat) (sel1 sel2 : Sel) (i1 i2 : Item) {c : Nat} (h1 : sel1.of i1 = .const c) (h2 : sel2.of i2 = .const c) :
    tryFinders s st o1 o2 sel1 sel2 i1 i2 = some sel1.slot := by
  unfold tryFinders
  rw [h1, h2, hs, finder_eq _ rfl]

theorem try_ne (s : Search) (hs : s.size = fun _ _ => 64) (hc : s.constants = false) (o1 o2 : Nat) (sel1 sel2 : Sel) (i1 i2 : Item) {c d : Nat} (h1 : sel1.of i1 = .const c) (h2 : sel2.of i2 = .const d) (h : c ≠ d) :
    tryFinders s st o1 o2 sel1 sel2 i1 i2 = none := by
  unfold tryFinders
  rw [h1, h2, hs, finder_ne _ rfl _ _ h, hc]
  simp

theorem findKey : findF 1 search [st] 0 1 .key .key = some .key := by
  unfold findF findFrom
  rw [present0, present1]
  simp only [List.length_cons, List.length_nil, search, id, firstMatch]
  rw [try_eq _ rfl 0 1 .key .key _ _ (c := 1) rfl rfl]
  simp [candidateValid, evalE, Sel.slot, Sel.of, st, definitely_const, findFrom]

theorem findValueFromKey : findF 1 search [st] 0 1 .key .value = none := by
  unfold findF findFrom
  rw [present0, present1]
  simp only [List.length_cons, List.length_nil, search, id, firstMatch]
  rw [try_ne _ rfl rfl 0 1 .key .value _ _ (c := 1) (d := 20) rfl rfl (by decide), try_ne _ rfl rfl 0 1 .key .value _ _ (c := 1) (d := 10) rfl rfl (by decide)]
  simp

theorem findValue : findF 1 search [st] 0 1 .value .value = some .value := by
  unfold findF findFrom
  rw [present0, present1]
  simp only [List.length_cons, List.length_nil, search, id, firstMatch]
  rw [try_ne _ rfl rfl 0 1 .value .value _ _ (c := 10) (d := 20) rfl rfl (by decide), try_eq _ rfl 0 1 .value .value _ _ (c := 10) rfl rfl]
  simp [candidateValid, evalE, Sel.slot, Sel.of, st, definitely_const, findFrom]

theorem constant_const (c : Nat) : constantValue [] (.const c) = some c := by
  have h : ∃ c', (∃ ρ, sat [] ρ) ∧ ∀ ρ, sat [] ρ → (E.const c).den ρ = c' := ⟨c, ⟨env0, sat_nil _⟩, fun _ _ => rfl⟩
  unfold constantValue
  rw [dif_pos h, ← h.choose_spec.2 env0 (sat_nil _)]
  rfl

theorem conditions : findFps id none [st] 0 true = [ieq .value (.lift (.const 10)), ieq .value (.lift (.const 20))] := by
  unfold findFps constantsOf
  simp only [List.flatMap_cons, List.flatMap_nil, present0, show st.constraints = [] from rfl, List.filterMap_cons, constant_const, List.filterMap_nil]
  rfl

theorem guesses : realGuess 1 search id objects anc 0 [0, 1] [st] = [triesFor 1 .key (some .value) [ieq .value (.lift (.const 10)), ieq .value (.lift (.const 20))]] := by
  have hk : findFk 1 search [st] 0 1 = some .key := by unfold findFk; rw [show ({ search with constants := false } : Search) = search from rfl, findKey]
  have hv : findFv 1 search ⟨fun _ => none, fun _ => false, fun _ => true⟩ [st] 0 1 = some .value := by
    unfold findFv
    rw [show ({ search with constants := !(true && true) } : Search) = search from rfl, findValueFromKey, findValue]
  unfold realGuess
  simp only [objects, conditions]
  have hver' : ¬st.version 1 = anc.version 1 := by decide
  simp [hk, hv, hver']

theorem arrayOk (ρ : Env) (a b : Nat) : MapOk 0 ρ (fun _ => (0, false)) (arrayOf a b) where
  within := by
    constructor <;> simp [arrayOf, E.within, B.within, Item.within]
  caches := by simp [arrayOf, CacheOk, items, transform]
  distinct := by
    simp [arrayOf, E.den]
  base := by simp [BaseOk, arrayOf]
  unknownKey := by simp [Untouched, arrayOf, E.den]
  unknown := by simp [Item.ok, arrayOf, E.den, B.den]
  touched := by simp [arrayOf]
  invs := by simp [arrayOf]
  length := by
    intro d
    cases d with
    | zero =>
      refine ⟨{1, 2}, fun k => ?_, rfl, by decide⟩
      simp only [arrayOf, List.drop_zero, content, override, List.find?, E.den]
      by_cases h1 : k = 1
      · subst h1; simp [B.den]
      · by_cases h2 : k = 2
        · subst h2; simp [B.den]
        · simp [h1, h2, beq_false_of_ne (Ne.symm h1), beq_false_of_ne (Ne.symm h2)]
    | succ d =>
      refine ⟨∅, fun k => ?_, ?_, by decide⟩ <;> simp [arrayOf, content, lengthOf, E.den]

theorem described (ρ : Env) : Describes st world ρ where
  sat := sat_nil _
  within := by simp [st]
  maps := by
    intro obj
    unfold st world
    dsimp only
    split <;> exact arrayOk ρ _ _

end GuessExample

open GuessExample in
/-- With two items, what is guessed of values may be false of them: the function to keys and the function to values were found for different matches. Here the second map is guessed to have the key and the
value of every item of the first whose value is 10, but it has another value for the key of the only such item. -/
theorem C76_value_mismatch : ∃ tries ∈ realGuess 1 search id objects anc 0 [0, 1] [st], ∃ p ∈ tries, ∃ i ∈ filterPresent st 0, ∃ W ρ, Describes st W ρ ∧
    p.sem (st.contentAt W ρ) ρ (i.key.den ρ) (i.value.den ρ) true = false := by
  refine ⟨_, by rw [guesses]; exact List.mem_singleton.2 rfl, iimplies (ieq .value (.lift (.const 10))) (.mapHasValue 1 .key .value none), by simp [triesFor], ⟨.const 1, .const 10, .lit true⟩, by simp [present0], world, env0, described _, ?_⟩
  rfl

open GuessExample in
/-- The hypotheses of `C76_function` and `C76_guess_fits_partial` can be met: relations are guessed between the two arrays. -/
example : (∀ l, (search.order l).Perm l) ∧ (∀ st' ∈ [st], ∀ i ∈ filterPresent st' 0, ∀ sel, OperandsFit st'.constraints (search.size 0 sel) (sel.of i)) ∧
    findF 1 search [st] 0 1 .key .key = some .key ∧ (∃ tries ∈ realGuess 1 search id objects anc 0 [0, 1] [st], tries ≠ []) ∧ Describes st world env0 := by
  refine ⟨fun l => List.Perm.refl _, ?_, findKey, ⟨_, by rw [guesses]; exact List.mem_singleton.2 rfl, by simp [triesFor]⟩, described _⟩
  intro st' hst i hi sel
  obtain rfl := List.mem_singleton.1 hst
  rw [present0] at hi
  simp only [List.mem_cons, List.not_mem_nil, or_false] at hi
  rcases hi with rfl | rfl <;> cases sel <;> exact ⟨fun _ _ h => by simp [Sel.of, concatE] at h, fun _ _ _ h => by simp [Sel.of, addW] at h⟩

open GuessExample in
/-- Those of `C76_conditions_partial`, too. -/
example : (∃ ρ, sat st.constraints ρ) ∧ ∃ i ∈ filterPresent st 0, ∀ ρ, sat st.constraints ρ → i.value.den ρ = 20 :=
  ⟨⟨env0, sat_nil _⟩, ⟨.const 2, .const 20, .lit true⟩, by simp [present0], fun _ _ => rfl⟩

open GuessExample in
/-- Those of `C76_found`, too: two maps in which one item was set, with the same symbol as the key. -/
example : ∃ (st : State) (i1 i2 : Item), filterPresent st 0 = [i1] ∧ filterPresent st 1 = [i2] ∧ search.size 0 .key = search.size 1 .key ∧ ∀ ρ, sat st.constraints ρ → i1.key.den ρ = i2.key.den ρ := by
  let m (v : Nat) : MapS := ⟨[], [], .const 0, ⟨.const 3, .const 0, .lit false⟩, [⟨[⟨.var 0, .const v, .lit true⟩], .const 1, (0, [])⟩]⟩
  have hp : ∀ s : State, ∀ o v, s.maps o = m v → filterPresent s o = [⟨.var 0, .const v, .lit true⟩] := by
    intro s o v hm
    unfold filterPresent
    rw [hm, show setItems (m v).layers = [⟨.var 0, .const v, .lit true⟩] by simp [m, setItems, transform]]
    unfold presentFrom
    rw [if_pos (surelyNew_iff.2 fun ρ _ => ⟨rfl, by simp⟩)]
    rfl
  exact ⟨⟨[], 1, fun o => m o⟩, ⟨.var 0, .const 0, .lit true⟩, ⟨.var 0, .const 1, .lit true⟩, hp _ 0 0 rfl, hp _ 1 1 rfl, rfl, fun _ _ => rfl⟩

/-- A pointer "(x..0) + n" is matched with the index "x", by the function that subtracts and divides. -/
example : ∃ f, finderVarious [] ⟨[], 1, fun _ => GuessExample.arrayOf 0 0⟩ 64 64 .value (addW 64 (concatE 4 (.var 0) (.const 0)) (.const 4096)) (.var 0) = some f := by
  let x1 := addW 64 (concatE 4 (.var 0) (.const 0)) (.const 4096)
  have hex : ∃ p : Nat × E × E, x1 = addW 64 (concatE p.1 p.2.1 (.const 0)) p.2.2 ∧ ∀ s ∈ p.2.2.syms, s ∈ ([] : List Sym) := ⟨(4, .var 0, .const 4096), rfl, by simp [E.syms]⟩
  obtain ⟨q, hq, hx⟩ : ∃ q : Nat × E × E, shifted [] 64 x1 = some q ∧ q.2.1 = .var 0 := by
    refine ⟨hex.choose, by unfold shifted; exact dif_pos hex, ?_⟩
    have := hex.choose_spec.1
    generalize hex.choose = q at this
    simp only [x1, addW, concatE, E.op2.injEq] at this
    exact this.2.1.2.1.symm
  obtain ⟨low, x, n⟩ := q
  obtain rfl : x = .var 0 := hx
  have hd : definitely [] (x1.eq (.var 0)) = false := by
    rw [Bool.eq_false_iff, ne_eq, definitely_iff]
    intro h
    have := h env0 (by simp [sat])
    simp [x1, addW, concatE, E.eq, B.den, E.den, env0] at this
  have ho : E.occurs x1 (.var 0) = false := by simp [E.occurs, x1, addW]
  have hz : zeroConcat x1 = none := by
    unfold zeroConcat
    rw [dif_neg]
    rintro ⟨p, hp⟩; simp [concatE, x1, addW] at hp
  unfold finderVarious
  rw [if_neg (by simp)]
  simp only [show addW 64 (concatE 4 (.var 0) (.const 0)) (.const 4096) = x1 from rfl, hd, ho, hz, hq]
  simp [E.occurs]

end Verif.Props
