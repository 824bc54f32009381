/-
Invariant inference, more: which symbols a widened invariant can mention (C28), how guesses are tested (C27), and several initial states (C27).
-/
import Verif.Props.InferWrong

set_option autoImplicit false

namespace Verif.Props

open Verif.Tool.GhostMap

/-- Two assignments that agree on some symbols. -/
def AgreeOn (l : List Sym) (ρ ρ' : Env) : Prop := (∀ i, Sym.bv i ∈ l → ρ.bv i = ρ'.bv i) ∧ ∀ i, Sym.bl i ∈ l → ρ.bl i = ρ'.bl i

mutual
theorem E.repl_var_agree {j : Nat} {r : IE} {M : Nat → Option Nat → Contents} {ρ ρ' : Env} {k v : Nat} {p : Bool} (hr : r.sem M ρ k v p = r.sem M ρ' k v p) :
    ∀ e : E, (∀ i, Sym.bv i ∈ e.syms → i ≠ j → ρ.bv i = ρ'.bv i) → (∀ i, Sym.bl i ∈ e.syms → ρ.bl i = ρ'.bl i) →
      (E.repl (.var j) r e).sem M ρ k v p = (E.repl (.var j) r e).sem M ρ' k v p
  | .const n, _, _ => by simp [E.repl, IE.sem, E.den]
  | .var i, h1, _ => by
    unfold E.repl
    split
    · exact hr
    · rename_i hne
      exact h1 i (by simp [E.syms]) (by rintro rfl; exact hne rfl)
  | .op1 f a, h1, h2 => by
    simp only [E.repl, reduceCtorEq, if_false, IE.sem, E.repl_var_agree hr a h1 h2]
  | .op2 f a b, h1, h2 => by
    simp only [E.syms, List.mem_append] at h1 h2
    simp only [E.repl, reduceCtorEq, if_false, IE.sem, E.repl_var_agree hr a (fun i h => h1 i (.inl h)) (fun i h => h2 i (.inl h)),
      E.repl_var_agree hr b (fun i h => h1 i (.inr h)) (fun i h => h2 i (.inr h))]
  | .ite c t e, h1, h2 => by
    simp only [E.syms, List.mem_append] at h1 h2
    simp only [E.repl, reduceCtorEq, if_false, IE.sem, B.repl_var_agree hr c (fun i h => h1 i (.inl (.inl h))) (fun i h => h2 i (.inl (.inl h))),
      E.repl_var_agree hr t (fun i h => h1 i (.inl (.inr h))) (fun i h => h2 i (.inl (.inr h))),
      E.repl_var_agree hr e (fun i h => h1 i (.inr h)) (fun i h => h2 i (.inr h))]
theorem B.repl_var_agree {j : Nat} {r : IE} {M : Nat → Option Nat → Contents} {ρ ρ' : Env} {k v : Nat} {p : Bool} (hr : r.sem M ρ k v p = r.sem M ρ' k v p) :
    ∀ b : B, (∀ i, Sym.bv i ∈ b.syms → i ≠ j → ρ.bv i = ρ'.bv i) → (∀ i, Sym.bl i ∈ b.syms → ρ.bl i = ρ'.bl i) →
      (B.repl (.var j) r b).sem M ρ k v p = (B.repl (.var j) r b).sem M ρ' k v p
  | .lit b, _, _ => rfl
  | .var i, _, h2 => h2 i (by simp [B.syms])
  | .not a, h1, h2 => by simp only [B.repl, IB.sem, B.repl_var_agree hr a h1 h2]
  | .and a b, h1, h2 => by
    simp only [B.syms, List.mem_append] at h1 h2
    simp only [B.repl, IB.sem, B.repl_var_agree hr a (fun i h => h1 i (.inl h)) (fun i h => h2 i (.inl h)),
      B.repl_var_agree hr b (fun i h => h1 i (.inr h)) (fun i h => h2 i (.inr h))]
  | .or a b, h1, h2 => by
    simp only [B.syms, List.mem_append] at h1 h2
    simp only [B.repl, IB.sem, B.repl_var_agree hr a (fun i h => h1 i (.inl h)) (fun i h => h2 i (.inl h)),
      B.repl_var_agree hr b (fun i h => h1 i (.inr h)) (fun i h => h2 i (.inr h))]
  | .iff a b, h1, h2 => by
    simp only [B.syms, List.mem_append] at h1 h2
    simp only [B.repl, IB.sem, B.repl_var_agree hr a (fun i h => h1 i (.inl h)) (fun i h => h2 i (.inl h)),
      B.repl_var_agree hr b (fun i h => h1 i (.inr h)) (fun i h => h2 i (.inr h))]
  | .ite c t e, h1, h2 => by
    simp only [B.syms, List.mem_append] at h1 h2
    simp only [B.repl, IB.sem, B.repl_var_agree hr c (fun i h => h1 i (.inl (.inl h))) (fun i h => h2 i (.inl (.inl h))),
      B.repl_var_agree hr t (fun i h => h1 i (.inl (.inr h))) (fun i h => h2 i (.inl (.inr h))),
      B.repl_var_agree hr e (fun i h => h1 i (.inr h)) (fun i h => h2 i (.inr h))]
  | .rel f a b, h1, h2 => by
    simp only [B.syms, List.mem_append] at h1 h2
    simp only [B.repl, IB.sem, E.repl_var_agree hr a (fun i h => h1 i (.inl h)) (fun i h => h2 i (.inl h)),
      E.repl_var_agree hr b (fun i h => h1 i (.inr h)) (fun i h => h2 i (.inr h))]
end

/-- C28, for items whose key and value are symbols: what is added to an invariant says nothing about symbols other than those of the states the iteration started from, so its meaning is
the same in all states. What is missing: keys and values that are other expressions, for which it is false, see `C28_symbols_escape`. -/
theorem C28_symbols_partial {cs : List B} {i j : Nat} {present : B} {anc : List Sym} {M : Nat → Option Nat → Contents} {ρ ρ' : Env} (h : AgreeOn anc ρ ρ') (k v : Nat) (p : Bool) :
    (widening cs ⟨.var i, .var j, present⟩ anc).sem M ρ k v p = (widening cs ⟨.var i, .var j, present⟩ anc).sem M ρ' k v p := by
  have key : ∀ (i : Nat) (slot : IE), slot.sem M ρ k v p = slot.sem M ρ' k v p → ∀ c ∈ findConstraints cs (.var i) slot anc, c.sem M ρ k v p = c.sem M ρ' k v p := by
    intro i slot hslot c hc
    unfold findConstraints at hc
    split at hc
    · simp only [List.mem_singleton] at hc
      subst hc
      simp [ieq, IB.sem, IE.sem, hslot, E.den]
    · have hz : zeroTop (.var i) = none := by
        unfold zeroTop
        rw [dif_neg]
        rintro ⟨w, x, hx⟩
        simp [concatE] at hx
      rw [hz] at hc
      simp only [List.append_nil, List.mem_map, List.mem_filter, Bool.and_eq_true, List.all_eq_true, Bool.or_eq_true, decide_eq_true_eq] at hc
      obtain ⟨b, ⟨hb, ho, hv⟩, rfl⟩ := hc
      refine B.repl_var_agree hslot b (fun m hm hne => ?_) (fun m hm => ?_)
      · rcases hv _ hm with hv | hv
        · simp only [E.syms, List.mem_singleton, Sym.bv.injEq] at hv
          exact absurd hv hne
        · exact h.1 m hv
      · rcases hv _ hm with hv | hv
        · simp [E.syms] at hv
        · exact h.2 m hv
  have all : ∀ l : List IB, (∀ c ∈ l, c.sem M ρ k v p = c.sem M ρ' k v p) → (iandAll l).sem M ρ k v p = (iandAll l).sem M ρ' k v p := by
    intro l
    induction l with
    | nil => intro _; rfl
    | cons c l ih =>
      intro hl
      simp only [iandAll, IB.sem, hl c (by simp), ih fun c hc => hl c (by simp [hc])]
  refine all _ fun c hc => ?_
  rw [List.mem_append] at hc
  rcases hc with hc | hc
  · exact key i .key rfl c hc
  · exact key j .value rfl c hc

/-- Two different assignments agree on the symbols of the example, in which symbol 0 is the ancestor's and the constraint relates it to the value. -/
example : AgreeOn [.bv 0] ⟨fun _ => 1, fun _ => true⟩ ⟨fun i => if i = 0 then 1 else 2, fun _ => false⟩ ∧
    (B.rel (fun x y => decide (x < y)) (.var 1) (.var 0)).syms.all (fun v => decide (v ∈ (E.var 1).syms) || decide (v ∈ [Sym.bv 0])) = true := by
  refine ⟨⟨?_, ?_⟩, ?_⟩
  · intro i hi
    simp only [List.mem_singleton, Sym.bv.injEq] at hi
    simp [hi]
  · intro i hi
    simp at hi
  · simp [B.syms, E.syms]

namespace Escape

def plusOne : E := .op1 (fun n => (n + 1) % 2 ^ 64) (.var 0)
def constraint : B := .rel (fun x y => decide (x < y)) plusOne (.op1 (fun n => 2 * n % 2 ^ 64) (.var 0))

end Escape

open Escape in
/-- C28's widening can mention symbols that only exist in one explored state: a symbol that occurs in the item's value is allowed in the constraints that are copied, and is still there after the value is
replaced if it occurs elsewhere too. The value is x + 1 for a symbol x of one packet, and it is known that x + 1 < 2 x: the added invariant says that the value is less than 2 x, which is true or
false depending on what x is taken to be, though no symbol is shared. -/
theorem C28_symbols_escape : ∃ ρ ρ' : Env, AgreeOn [] ρ ρ' ∧ ∀ M p, (widening [constraint] ⟨.const 7, plusOne, .lit true⟩ []).sem M ρ 7 5 p = true ∧
    (widening [constraint] ⟨.const 7, plusOne, .lit true⟩ []).sem M ρ' 7 5 p = false := by
  have hc : constantValue [constraint] plusOne = none := by
    unfold constantValue
    rw [dif_neg]
    rintro ⟨c, -, h⟩
    have h1 := h ⟨fun _ => 4, fun _ => true⟩ (by simp [sat, constraint, plusOne, B.den, E.den])
    have h2 := h ⟨fun _ => 5, fun _ => true⟩ (by simp [sat, constraint, plusOne, B.den, E.den])
    simp [plusOne, E.den] at h1 h2
    omega
  have hk : constantValue [constraint] (.const 7) = some 7 := by
    have he : ∃ c, (∃ ρ, sat [constraint] ρ) ∧ ∀ ρ, sat [constraint] ρ → (E.const 7).den ρ = c :=
      ⟨7, ⟨⟨fun _ => 4, fun _ => true⟩, by simp [sat, constraint, plusOne, B.den, E.den]⟩, fun _ _ => rfl⟩
    unfold constantValue
    rw [dif_pos he]
    obtain ⟨⟨ρ, hρ⟩, h⟩ := he.choose_spec
    rw [← h ρ hρ]
    rfl
  have hz : zeroTop plusOne = none := by
    unfold zeroTop
    rw [dif_neg]
    rintro ⟨w, x, hx⟩
    simp [concatE, plusOne] at hx
  have hw : widening [constraint] ⟨.const 7, plusOne, .lit true⟩ [] =
      .and (ieq .key (.lift (.const 7))) (.and (.rel (fun x y => decide (x < y)) .value (.op1 (fun n => 2 * n % 2 ^ 64) (.lift (.var 0)))) (.lift (.lit true))) := by
    have hf : (fun n : Nat => 2 * n % 2 ^ 64) ≠ fun n => (n + 1) % 2 ^ 64 := by
      intro h
      have := congrFun h 0
      simp at this
    unfold widening findConstraints
    simp only [hk, hc, hz]
    have hocc : B.occurs plusOne constraint = true := by
      unfold constraint B.occurs
      simp [plusOne, E.occurs]
    have hr : B.repl plusOne .value constraint = .rel (fun x y => decide (x < y)) .value (.op1 (fun n => 2 * n % 2 ^ 64) (.lift (.var 0))) := by
      unfold constraint B.repl plusOne
      simp only [E.repl, if_true, reduceCtorEq, if_false]
      rw [if_neg (fun h => hf (E.op1.inj h).1)]
    have hall : (constraint.syms.all fun v => decide (v ∈ plusOne.syms) || decide (v ∈ ([] : List Sym))) = true := by
      simp [constraint, plusOne, B.syms, E.syms]
    rw [List.filter_cons_of_pos (by rw [hocc, hall]; rfl), List.filter_nil, List.map_singleton, hr]
    rfl
  refine ⟨⟨fun _ => 4, fun _ => true⟩, ⟨fun _ => 2, fun _ => true⟩, ⟨by simp, by simp⟩, fun M p => ?_⟩
  rw [hw]
  simp [IB.sem, IE.sem, E.den, B.den, ieq]

/-- A state reached from another by testing predicates of a map. -/
inductive Tested (fuel obj : Nat) : State → State → Prop
  | refl (st : State) : Tested fuel obj st st
  | step {st st1 st2 : State} {pred : IB} {b : B} : Tested fuel obj st st1 → forall_ fuel st1 obj pred = some (b, st2) → Tested fuel obj st st2

theorem Tested.trans {fuel obj : Nat} {a b c : State} (h1 : Tested fuel obj a b) (h2 : Tested fuel obj b c) : Tested fuel obj a c := by
  induction h2 with
  | refl => exact h1
  | step _ h ih => exact .step ih h

theorem holdsInAll_tested {fuel obj : Nat} {pred : IB} : ∀ {sts sts' : List State} {r : Bool}, holdsInAll fuel obj pred sts = some (r, sts') →
    List.Forall₂ (Tested fuel obj) sts sts' ∧
    (r = true → ∀ st ∈ sts, ∃ b st', forall_ fuel st obj pred = some (b, st') ∧ ∀ ρ, sat st'.constraints ρ → b.den ρ = true)
  | [], sts', r, h => by
    simp only [holdsInAll, Option.some.injEq, Prod.mk.injEq] at h
    obtain ⟨rfl, rfl⟩ := h
    exact ⟨.nil, by simp⟩
  | st :: sts, sts', r, h => by
    unfold holdsInAll at h
    split at h
    · simp at h
    · rename_i b st1 hf
      split at h
      · rename_i hd
        split at h
        · simp at h
        · rename_i r1 sts1 hr
          simp only [Option.some.injEq, Prod.mk.injEq] at h
          obtain ⟨rfl, rfl⟩ := h
          obtain ⟨h1, h2⟩ := holdsInAll_tested hr
          refine ⟨.cons (.step (.refl st) hf) h1, fun hr st' hst' => ?_⟩
          rcases List.mem_cons.1 hst' with rfl | hst'
          · exact ⟨b, st1, hf, fun ρ hs => definitely_sound hd hs⟩
          · exact h2 hr st' hst'
      · simp only [Option.some.injEq, Prod.mk.injEq] at h
        obtain ⟨rfl, rfl⟩ := h
        exact ⟨.cons (.step (.refl st) hf) (List.forall₂_same.2 fun s _ => .refl s), by simp⟩

/-- The predicate holds in a state: its test there can only be true. -/
def HoldsIn (fuel obj : Nat) (pred : IB) (st : State) : Prop := ∃ b st', forall_ fuel st obj pred = some (b, st') ∧ ∀ ρ, sat st'.constraints ρ → b.den ρ = true

theorem tested_trans {fuel obj : Nat} : ∀ {a b c : List State}, List.Forall₂ (Tested fuel obj) a b → List.Forall₂ (Tested fuel obj) b c → List.Forall₂ (Tested fuel obj) a c
  | [], _, _, .nil, .nil => .nil
  | _ :: _, _, _, .cons h1 t1, .cons h2 t2 => .cons (h1.trans h2) (tested_trans t1 t2)

theorem firstThatHolds_tested {fuel obj : Nat} : ∀ {ps : List IB} {sts sts' : List State} {r : Option IB}, firstThatHolds fuel obj ps sts = some (r, sts') →
    List.Forall₂ (Tested fuel obj) sts sts' ∧ ∀ p, r = some p → p ∈ ps ∧ ∃ mid, List.Forall₂ (Tested fuel obj) sts mid ∧ ∀ st ∈ mid, HoldsIn fuel obj p st
  | [], sts, sts', r, h => by
    simp only [firstThatHolds, Option.some.injEq, Prod.mk.injEq] at h
    obtain ⟨rfl, rfl⟩ := h
    exact ⟨List.forall₂_same.2 fun s _ => .refl s, by simp⟩
  | q :: ps, sts, sts', r, h => by
    unfold firstThatHolds at h
    split at h
    · simp at h
    · rename_i sts1 hq
      simp only [Option.some.injEq, Prod.mk.injEq] at h
      obtain ⟨rfl, rfl⟩ := h
      obtain ⟨h1, h2⟩ := holdsInAll_tested hq
      refine ⟨h1, fun p hp => ?_⟩
      simp only [Option.some.injEq] at hp
      subst hp
      exact ⟨by simp, sts, List.forall₂_same.2 fun s _ => .refl s, h2 rfl⟩
    · rename_i sts1 hq
      obtain ⟨h1, -⟩ := holdsInAll_tested hq
      obtain ⟨h3, h4⟩ := firstThatHolds_tested h
      refine ⟨tested_trans h1 h3, fun p hp => ?_⟩
      obtain ⟨hm, mid, h5, h6⟩ := h4 p hp
      exact ⟨by simp [hm], mid, tested_trans h1 h5, h6⟩

/-- C27, guessed relations between maps: every predicate that is assumed was guessed, and has been tested in every explored state, in which nothing but other guesses had been tested before:
it cannot be false of the items of the map there. -/
theorem C27_guesses_tested {fuel obj : Nat} : ∀ {guesses : List (List IB)} {sts : List State} {ps : List IB}, checkGuesses fuel obj guesses sts = some ps →
    ∀ p ∈ ps, ∃ l ∈ guesses, p ∈ l ∧ ∃ mid, List.Forall₂ (Tested fuel obj) sts mid ∧ ∀ st ∈ mid, HoldsIn fuel obj p st
  | [], sts, ps, h => by
    simp only [checkGuesses, Option.some.injEq] at h
    subst h
    simp
  | l :: guesses, sts, ps, h => by
    unfold checkGuesses at h
    split at h
    · simp at h
    · rename_i r sts1 hf
      split at h
      · simp at h
      · rename_i qs hq
        simp only [Option.some.injEq] at h
        subst h
        obtain ⟨h1, h2⟩ := firstThatHolds_tested hf
        intro p hp
        rcases List.mem_append.1 hp with hp | hp
        · obtain ⟨hm, mid, h3, h4⟩ := h2 p (by simpa using hp)
          exact ⟨l, by simp, hm, mid, h3, h4⟩
        · obtain ⟨l', hl', hm, mid, h3, h4⟩ := C27_guesses_tested hq p hp
          exact ⟨l', by simp [hl'], hm, mid, tested_trans h1 h3, h4⟩

/-- A guess that holds, of an empty map. -/
example : checkGuesses 1 0 [[.lift (.lit false)]] [⟨[], 2, fun _ => ⟨[], [], .const 0, ⟨.var 0, .var 1, .var 0⟩, []⟩⟩] = some [.lift (.lit false)] := by
  have hd : ∀ cs, definitely cs (.lit true) = true := fun cs => by
    unfold definitely
    simp [B.den]
  have hf : forall_ 1 ⟨[], 2, fun _ => ⟨[], [], .const 0, ⟨.var 0, .var 1, .var 0⟩, []⟩⟩ 0 (.lift (.lit false)) = some (.lit true, ⟨[], 2, fun _ => ⟨[], [], .const 0, ⟨.var 0, .var 1, .var 0⟩, []⟩⟩) := by
    unfold forall_
    exact if_pos rfl
  simp [checkGuesses, firstThatHolds, holdsInAll, hf, hd]

namespace TwoStates

def inv1 : IB := .iff (.rel (fun x y => decide (x < y)) .key (.lift (.const 2))) .present
/-- Every value is c. -/
def inv2 (c : Nat) : IB := .or (.not .present) (.rel (fun x y => x == y) .value (.lift (.const c)))

def map (c : Nat) : MapS := ⟨[inv1, inv2 c], [], .const 2, ⟨.var 0, .var 1, .var 0⟩, []⟩

/-- An initial state: every map is an array of two elements, which are all c. -/
def initial (c : Nat) : State :=
  ⟨[.iff (.rel (fun x y => decide (x < y)) (.var 0) (.const 2)) (.var 0), .or (.not (.var 0)) (.rel (fun x y => x == y) (.var 1) (.const c))], 2, fun _ => map c⟩

def world (c : Nat) : Nat → Contents := fun _ k => (c, decide (k < 2))
def env (c : Nat) : Env := ⟨fun i => if i = 0 then 7 else c, fun _ => false⟩

/-- Every packet sets element 0 to 1. -/
def handler : Prog := .set 0 (.const 0) (.const 1) .done
def handle (M : Maps) : Maps := M.put 0 0 (some 1)

theorem initial_describes (c : Nat) : Describes (initial c) (world c) (env c) := by
  refine ⟨by simp [initial, sat, B.den, E.den, env], by simp [initial, B.within, E.within], fun o => ?_⟩
  refine ⟨⟨by simp [initial, map], trivial, ⟨?_, ?_, ?_⟩, by simp [initial, map], by simp [initial, map, inv1, inv2, IB.pure, IE.pure, E.within]⟩, trivial, by simp [initial, map], by simp [BaseOk, initial, map], by simp [Untouched, initial, map],
    ?_, by simp [initial, map], ?_, ?_⟩
  · show 0 < 2; omega
  · show 1 < 2; omega
  · show 0 < 2; omega
  · simp [Item.ok, initial, map, E.den, B.den, env, world]
  · intro inv hinv k _
    simp only [initial, map, List.mem_cons, List.not_mem_nil, or_false] at hinv
    rcases hinv with rfl | rfl
    · simp [inv1, IB.sem, IE.sem, E.den, world]
    · simp [inv2, IB.sem, IE.sem, E.den, world]
  · intro d
    refine ⟨{0, 1}, ?_, ?_, by simp⟩
    · intro k
      simp [content, world, initial, map]
      omega
    · simp [lengthOf, E.den, initial, map]

theorem result (c : Nat) : ∃ r, handler.run 1 (initial c) = some r ∧ (r.maps 0).version = 1 ∧ setItems (r.maps 0).layers = [⟨.const 0, .const 1, .lit true⟩] ∧
    r.length 0 = (E.const 2).add (.ite (.lit true) (.const 0) (.const 1)) := by
  obtain ⟨st1, hg1, -, hcs1, -, hn1, -, hb1, hl1, hu1, hi1, hbl1, hinv1⟩ := get_miss 0 (initial c) 0 none (.const 0) none (.lit true)
    (by rfl)
    (by
      refine exactMatch_none (initial_describes c).sat ?_ (by simp [E.symbolic])
      intro i hi
      have hi' : i = ⟨.var 0, .var 1, .var 0⟩ := by simpa [initial, map, skip, known] using hi
      subst hi'
      simp)
    trivial (by simp [initial, map, inv1, inv2, IB.pure, IE.pure, E.within])
  obtain ⟨_, _, ρ1, hg1', hr1⟩ := get_read 0 (initial_describes c) 0 none (key := .const 0) (hint := none) (cond := .lit true) trivial (by simp) trivial
    ((initial_describes c).maps 0).base (by simp)
  rw [hg1] at hg1'
  obtain ⟨rfl, rfl⟩ := Prod.mk.inj (Option.some.inj hg1')
  have hp := InferSingle.constantOr_true (b := .var (initial c).next) hr1.describes.sat (by
    intro ρ hsat
    have := hinv1 ρ hsat (by simp [initial, map, skip, known, isUnknown, andAll, B.den]) inv1 (by simp [initial, map])
    simpa [inv1, IB.sem, IE.sem, E.den, B.den] using this)
  have hs := set_of_get (value := .const 1) hg1 hp
  generalize hst2 : (State.setMap _ 0 (withItemLayer _ _ _) : State) = st2 at hs
  have hl0 : (st1.maps 0).layers = [] := by rw [hl1 rfl]; simp [initial, map, known]
  have hlay : (st2.maps 0).layers = [⟨[⟨.const 0, .const 1, .lit true⟩], (E.const 2).add (.ite (.lit true) (.const 0) (.const 1)), (0, [])⟩] := by
    rw [← hst2, setMap_same]
    simp [withItemLayer, flattens, hl0, lengthOf, hbl1, initial, map]
  refine ⟨st2, ?_, ?_, ?_, ?_⟩
  · unfold handler Prog.run
    rw [hs]
    rfl
  · unfold MapS.version
    rw [hlay]
    rfl
  · rw [hlay]
    simp [setItems, transform]
  · unfold State.length
    rw [hlay]
    rfl

end TwoStates

open TwoStates in
/-- C27 is false for several initial states whose invariants differ, because only the invariants of the first are looked at. The elements of an array of two are all 1 in the first initial state and all 2 in
the second one; every packet sets element 0 to 1. That agrees with the invariants of the first state, so the loop stops at once, with the initial states. After one packet from the second one
the elements are 1 and 2, and each of the states it stopped with has an invariant that is false of one of them. -/
theorem C27_two_initial_states_lost : ∃ R, fixpointLoop 1 noGuess [0] (fun A => (handler.run 1 A).map fun r => [r]) 1 [initial 1, initial 2] (fun _ => none) =
      some ([initial 1, initial 2], R, fun _ => none) ∧ Describes (initial 1) (world 1) (env 1) ∧ Describes (initial 2) (world 2) (env 2) ∧
    ∀ A ∈ [initial 1, initial 2], ∃ inv ∈ (A.maps 0).invs, ∃ k v, handle ((initial 2).maps' (world 2) (env 2)) 0 k = some v ∧ ∀ ρ, inv.sem noMaps ρ k v true = false := by
  obtain ⟨r1, a1, a2, a3, a4⟩ := result 1
  obtain ⟨r2, b1, b2, b3, b4⟩ := result 2
  refine ⟨[r1, r2], ?_, initial_describes 1, initial_describes 2, ?_⟩
  · have hd : ∀ (cs : List B) (b : B), (∀ ρ, b.den ρ = true) → definitely cs b = true := fun cs b h => by
      unfold definitely
      rw [@decide_eq_true_iff _ (Classical.propDecidable _)]
      exact fun ρ _ => h ρ
    have hfl : ∀ (st : State) (conj : IB), conj = inv1 ∨ conj = inv2 1 →
        flattenItems 1 (getVariables [0] [initial 1, initial 2]) conj false st [⟨.const 0, .const 1, .lit true⟩] = some (conj, false, st) := by
      intro st conj hc
      have hp : conj.still := by rcases hc with rfl | rfl <;> simp [inv1, inv2, IB.still, IE.still]
      obtain ⟨b, e1, e2⟩ := evalB_still (get 1) ⟨.const 0, .const 1, .lit true⟩ (.and (.lit true) (.lit true)) st conj hp
      unfold flattenItems
      rw [freezeB_still st conj hp]
      unfold applyInv
      rw [e1]
      simp only
      rw [if_pos]
      · rfl
      · apply hd
        intro ρ
        rw [den_implies]
        intro _
        rw [e2 noMaps ρ]
        rcases hc with rfl | rfl <;> simp [inv1, inv2, IB.sem, IE.sem, E.den, B.den]
    have hfs : ∀ conj : IB, conj = inv1 ∨ conj = inv2 1 → flattenStates 1 (getVariables [0] [initial 1, initial 2]) 0 conj false [r1, r2] = some (conj, false, [r1, r2]) := by
      intro conj hc
      simp [flattenStates, a3, b3, hfl _ _ hc]
    have hfa : flatten 1 (getVariables [0] [initial 1, initial 2]) 0 ((initial 1).maps 0).invs false [r1, r2] = some (((initial 1).maps 0).invs, false, [r1, r2]) := by
      show flatten 1 _ 0 [inv1, inv2 1] false [r1, r2] = some ([inv1, inv2 1], false, [r1, r2])
      simp [flatten, hfs _ (.inl rfl), hfs _ (.inr rfl)]
    have hrel : relevantObjs [0] (initial 1) [r1, r2] = [0] := by
      have h0 : ((initial 1).maps 0).version = 0 := rfl
      simp [relevantObjs, State.version, a2, b2, h0]
    have hlen : getLengthInvariants 0 [0] [r1, r2] (initial 1) = none := by
      unfold getLengthInvariants
      rw [if_pos]
      rw [List.all_eq_true]
      intro st hst
      apply hd
      intro ρ
      have : st.length 0 = (E.const 2).add (.ite (.lit true) (.const 0) (.const 1)) := by
        simp only [List.mem_cons, List.not_mem_nil, or_false] at hst
        rcases hst with rfl | rfl
        · exact a4
        · exact b4
      rw [this]
      simp [State.length, initial, map, lengthOf, E.eq, E.add, B.den, E.den]
    have hobj : inferObj 1 noGuess [0] (getVariables [0] [initial 1, initial 2]) (initial 1) (fun _ => none) [r1, r2] 0 = some ⟨false, ((initial 1).maps 0).invs, [], none⟩ := by
      unfold inferObj
      rw [hfa]
      simp [inferLength, hlen]
    unfold fixpointLoop
    simp [exploreAll, allSome, a1, b1, infer, hrel, inferObjs, hobj]
  · intro A hA
    simp only [List.mem_cons, List.not_mem_nil, or_false] at hA
    rcases hA with rfl | rfl
    · exact ⟨inv2 1, by simp [initial, map], 1, 2, rfl, fun ρ => by simp [inv2, IB.sem, IE.sem, E.den]⟩
    · exact ⟨inv2 2, by simp [initial, map], 0, 1, rfl, fun ρ => by simp [inv2, IB.sem, IE.sem, E.den]⟩

end Verif.Props
