/-
For C67: what is known of a value that is written suffices to see that the tool accepts it. A check that can be computed, and
its soundness with respect to the model of the tool.
-/
import Verif.Tool.CardSpec
import Verif.Props.RegWrite
import Verif.Props.RegAddr

set_option autoImplicit false

namespace Verif.Props
open Verif.Tool.Registers Verif.Tool.CardSpec RegField RegWrite

/-- claripy sees that two values are equal exactly if they are. -/
def CardFaithful (trivially : Val → Val → Bool) : Prop := ∀ a b : Val, trivially a b = true ↔ ∀ ρ, a.den ρ = b.den ρ

namespace Card

/-- What is known of a new value: the bits that are cleared, set, as in the old value, or cleared given the path constraints. -/
structure Known where
  zeros : Nat
  ones : Nat
  keep : Nat
  low : Nat

structure Known.Sat (N : Known) (con : Env → Prop) (old new : Val) : Prop where
  width : new.width = 32
  zeros : ∀ j ρ, N.zeros.testBit j = true → (new.den ρ).testBit j = false
  ones : ∀ j ρ, N.ones.testBit j = true → (new.den ρ).testBit j = true
  keep : ∀ j ρ, N.keep.testBit j = true → (new.den ρ).testBit j = (old.den ρ).testBit j
  low : ∀ j ρ, con ρ → N.low.testBit j = true → (new.den ρ).testBit j = false

def mask (f : Field) : Nat := (2 ^ (f.stop - f.start + 1) - 1) <<< f.start

def within (m k : Nat) : Bool := m &&& k == m

theorem within_bit {m k j : Nat} (h : within m k = true) (hj : m.testBit j = true) : k.testBit j = true := by
  have e : m &&& k = m := by simpa [within] using h
  rw [← e, Nat.testBit_and] at hj
  simp_all

theorem mask_bit {f : Field} {j : Nat} (h : f.start ≤ f.stop) : (mask f).testBit j = true ↔ f.start ≤ j ∧ j ≤ f.stop := by
  simp [mask, Nat.testBit_shiftLeft, Nat.testBit_two_pow_sub_one]
  omega

/-- The test of a value that is written to a field. -/
def absTest (N : Known) (f : Field) (t : Test) : Option Bool :=
  if within (mask f) (N.zeros ||| N.ones) then some (t.eval ((N.ones >>> f.start) % 2 ^ (f.stop - f.start + 1)))
  else
    match t with
    | .always => some true
    | .lowZero k => if k ≤ f.stop - f.start + 1 ∧ within ((2 ^ k - 1) <<< f.start) (N.zeros ||| N.low) = true then some true else none
    | .fn _ => none

/-- Whether an action matches. -/
def absMatch (name : String) (N : Known) (f : Field) : ActKind → Option Bool
  | .write n g t =>
    if f.stop ≠ f.start then
      if n = name ∧ g = f.name then absTest N f t else some false
    else some false
  | .set n g =>
    if f.stop = f.start ∧ n = name ∧ g = f.name then
      if within (mask f) N.ones then some true else if within (mask f) N.zeros then some false else none
    else some false
  | .clear n g =>
    if f.stop = f.start ∧ n = name ∧ g = f.name then
      if within (mask f) N.zeros then some true else if within (mask f) N.ones then some false else none
    else some false

/-- Bits that are known. -/
abbrev Bits := List (String × String × Bool)

def Bits.find (B : Bits) (n g : String) : Option Bool := (B.find? fun e => e.1 == n && e.2.1 == g).map (·.2.2)

def absCond (B : Bits) : Option Cond → Option Bool
  | none => some true
  | some (.reg n g) => B.find n g
  | some (.not (.reg n g)) => (B.find n g).map (!·)
  | _ => none

/-- The names of the actions that are valid for the field. -/
def absActs (name : String) (N : Known) (B : Bits) (f : Field) : List ActSpec → Option (List String)
  | [] => some []
  | a :: as =>
    if a.kind.toAct.register = name then
      match absMatch name N f a.kind with
      | none => none
      | some false => absActs name N B f as
      | some true =>
        match absCond B a.precond with
        | none => none
        | some false => absActs name N B f as
        | some true => (absActs name N B f as).map (a.name :: ·)
    else absActs name N B f as

/-- No action is about the field. -/
def untouched (name : String) (f : Field) (as : List ActSpec) : Bool := as.all fun a =>
  match a.kind with
  | .write n g _ => n != name || g != f.name
  | .set n g => n != name || g != f.name
  | .clear n g => n != name || g != f.name

/-- The fields that may change, with their actions. -/
def absFields (name : String) (N : Known) (B : Bits) (as : List ActSpec) : List Field → Option (List (Field × List String))
  | [] => some []
  | f :: fs =>
    if f.start ≤ f.stop ∧ f.stop < 32 then
      if within (mask f) N.keep then absFields name N B as fs
      else if f.access = .iw then
        if untouched name f as then (absFields name N B as fs).map ((f, []) :: ·) else none
      else if f.access = .na ∨ f.access = .ro then none
      else
        match absActs name N B f as with
        | some (a :: l) => (absFields name N B as fs).map ((f, a :: l) :: ·)
        | _ => none
    else none

/-- The bits are as claimed. -/
def Knows (c : Ctx) (i : Nat) (R : Store) (B : Bits) : Prop := ∀ e ∈ B, ∃ r f v, c.regs.get e.1 = some r ∧ r.field e.2.1 = some f ∧
  f.start = f.stop ∧ R e.1 (r.slot i) = some v ∧ f.stop < v.width ∧ ∀ ρ, (v.den ρ).testBit f.start = e.2.2

theorem find_knows {c : Ctx} {i : Nat} {R : Store} {B : Bits} (h : Knows c i R B) {n g : String} {b : Bool} (hb : B.find n g = some b) :
    ∃ r f v, c.regs.get n = some r ∧ r.field g = some f ∧ f.start = f.stop ∧ R n (r.slot i) = some v ∧ f.stop < v.width ∧
      ∀ ρ, (v.den ρ).testBit f.start = b := by
  unfold Bits.find at hb
  rw [Option.map_eq_some_iff] at hb
  obtain ⟨e, he, rfl⟩ := hb
  have h1 := List.find?_some he
  simp only [Bool.and_eq_true, beq_iff_eq] at h1
  obtain ⟨rfl, rfl⟩ := h1
  exact h e (List.mem_of_find?_eq_some he)

theorem evalCond_reg {c : Ctx} {i : Nat} {B : Bits} {d : Device} (h : Knows c i d.regs B) {n g : String} {b : Bool} (hb : B.find n g = some b) :
    ∃ x, evalCond c i d (.reg n g) = some (x, d) ∧ x.width = 1 ∧ ∀ ρ, x.den ρ = b.toNat := by
  obtain ⟨r, f, v, h1, h2, h3, h4, h5, h6⟩ := find_knows h hb
  obtain ⟨y, hy, -⟩ := extract_spec (x := v) (Nat.le_refl f.stop) h5
  refine ⟨y, ?_, (testBit_den_one hy fun _ => 0).1, fun ρ => ?_⟩
  · rw [evalCond, h1]
    simp only [fetch, h4, h2, h3, hy, Option.map_some]
  · rw [(testBit_den_one hy ρ).2, ← h3, h6]

theorem definitely_const {c : Ctx} (hsat : ∃ ρ, c.constraints ρ) {p : Prop} [Decidable p] : definitely c (fun _ => p) = decide p := by
  unfold definitely
  obtain ⟨ρ, hρ⟩ := hsat
  by_cases hp : p <;> simp [hp]
  exact ⟨ρ, hρ⟩

theorem precond_sound {c : Ctx} (hsat : ∃ ρ, c.constraints ρ) {i : Nat} {B : Bits} {d : Device} (h : Knows c i d.regs B) {p : Option Cond} {b : Bool}
    (hb : absCond B p = some b) : precondHolds c i d p = some (b, d) := by
  have fin : ∀ (x : Val) (b : Bool), x.width = 1 → (∀ ρ, x.den ρ = b.toNat) → definitely c (fun ρ => x.den ρ = 2 ^ x.width - 1) = b := by
    intro x b h1 h2
    have e : (fun ρ => x.den ρ = 2 ^ x.width - 1) = fun _ => b = true := by
      funext ρ
      rw [h1, h2]
      cases b <;> simp
    rw [e, definitely_const hsat]
    simp
  match p, hb with
  | none, hb => cases hb; rfl
  | some (.reg n g), hb =>
    obtain ⟨x, h1, h2, h3⟩ := evalCond_reg h hb
    simp only [precondHolds, h1, fin x b h2 h3]
  | some (.not (.reg n g)), hb =>
    simp only [absCond, Option.map_eq_some_iff] at hb
    obtain ⟨b', hb', rfl⟩ := hb
    obtain ⟨x, h1, h2, h3⟩ := evalCond_reg h hb'
    rw [precondHolds, evalCond, h1]
    simp only
    rw [fin (complement x) (!b') h2 fun ρ => ?_]
    change (2 ^ x.width - 1 - x.den ρ) % 2 ^ x.width = _
    rw [h2, h3]
    cases b' <;> rfl

section Field
variable {c : Ctx} {old new : Val} {N : Known} {f : Field} {n : Val}

theorem evalOne_const (hsat : ∃ ρ, c.constraints ρ) {p : Env → Bool} {b : Bool} (h : ∀ ρ, c.constraints ρ → p ρ = b) : evalOne c p = some b := by
  unfold evalOne
  obtain ⟨ρ, hρ⟩ := hsat
  cases b
  · rw [if_neg, if_pos ⟨⟨ρ, hρ⟩, h⟩]
    rintro ⟨-, h'⟩
    have := h ρ hρ
    rw [h' ρ hρ] at this
    cases this
  · rw [if_pos ⟨⟨ρ, hρ⟩, h⟩]

theorem part_bit (hf : f.start ≤ f.stop) (hw : f.stop < 32) (hN : N.Sat c.constraints old new) (hn : new.extract f.stop f.start = some n) :
    n.width = f.stop - f.start + 1 ∧ ∀ ρ j, (n.den ρ).testBit j = (decide (j < f.stop - f.start + 1) && (new.den ρ).testBit (j + f.start)) := by
  obtain ⟨y, hy, h1, h2⟩ := extract_spec (x := new) hf (by rw [hN.width]; exact hw)
  rw [hn, Option.some.injEq] at hy
  subst hy
  exact ⟨h1, h2⟩

theorem part_const (hf : f.start ≤ f.stop) (hw : f.stop < 32) (hN : N.Sat c.constraints old new) (hn : new.extract f.stop f.start = some n)
    (h : within (mask f) (N.zeros ||| N.ones) = true) (ρ : Env) : n.den ρ = (N.ones >>> f.start) % 2 ^ (f.stop - f.start + 1) := by
  apply Nat.eq_of_testBit_eq
  intro j
  rw [(part_bit hf hw hN hn).2, Nat.testBit_mod_two_pow, Nat.testBit_shiftRight]
  by_cases hj : j < f.stop - f.start + 1
  · simp only [hj, decide_true, Bool.true_and]
    have hb := within_bit h ((mask_bit (j := j + f.start) hf).2 ⟨by omega, by omega⟩)
    rw [Nat.add_comm f.start j]
    cases ho : N.ones.testBit (j + f.start) with
    | true => exact hN.ones _ ρ ho
    | false =>
      rw [Nat.testBit_or, ho, Bool.or_false] at hb
      exact hN.zeros _ ρ hb
  · simp [hj]

theorem part_ones (hf : f.start ≤ f.stop) (hw : f.stop < 32) (hN : N.Sat c.constraints old new) (hn : new.extract f.stop f.start = some n)
    (h : within (mask f) N.ones = true) (ρ : Env) : n.den ρ = 2 ^ n.width - 1 := by
  apply Nat.eq_of_testBit_eq
  intro j
  rw [(part_bit hf hw hN hn).2, (part_bit hf hw hN hn).1, Nat.testBit_two_pow_sub_one]
  by_cases hj : j < f.stop - f.start + 1
  · simp only [hj, decide_true, Bool.true_and]
    exact hN.ones _ ρ (within_bit h ((mask_bit hf).2 ⟨by omega, by omega⟩))
  · simp [hj]

theorem part_zeros (hf : f.start ≤ f.stop) (hw : f.stop < 32) (hN : N.Sat c.constraints old new) (hn : new.extract f.stop f.start = some n)
    (h : within (mask f) N.zeros = true) (ρ : Env) : n.den ρ = 0 := by
  apply Nat.eq_of_testBit_eq
  intro j
  rw [(part_bit hf hw hN hn).2, Nat.zero_testBit]
  by_cases hj : j < f.stop - f.start + 1
  · simp only [hj, decide_true, Bool.true_and]
    exact hN.zeros _ ρ (within_bit h ((mask_bit hf).2 ⟨by omega, by omega⟩))
  · simp [hj]

theorem test_sound (hsat : ∃ ρ, c.constraints ρ) (hf : f.start ≤ f.stop) (hw : f.stop < 32) (hN : N.Sat c.constraints old new)
    (hn : new.extract f.stop f.start = some n) {t : Test} {b : Bool} (h : absTest N f t = some b) :
    evalOne c (fun ρ => t.eval (n.den ρ)) = some b := by
  unfold absTest at h
  split at h
  · rename_i hc
    cases h
    exact evalOne_const hsat fun ρ _ => by rw [part_const hf hw hN hn hc]
  · match t, h with
    | .always, h => cases h; exact evalOne_const hsat fun _ _ => rfl
    | .lowZero k, h =>
      simp only at h
      split at h
      · rename_i hk
        cases h
        refine evalOne_const hsat fun ρ hρ => ?_
        simp only [Test.eval, beq_iff_eq]
        apply Nat.eq_of_testBit_eq
        intro j
        rw [Nat.testBit_mod_two_pow, Nat.zero_testBit, (part_bit hf hw hN hn).2]
        by_cases hj : j < k
        · have hm : ((2 ^ k - 1) <<< f.start).testBit (j + f.start) = true := by
            simp [Nat.testBit_shiftLeft, Nat.testBit_two_pow_sub_one, hj]
          have hb := within_bit hk.2 hm
          rw [Nat.testBit_or, Bool.or_eq_true] at hb
          have : (new.den ρ).testBit (j + f.start) = false := hb.elim (hN.zeros _ ρ) (hN.low _ ρ hρ)
          simp [this]
        · simp [hj]
      · cases h
    | .fn g, h => cases h

theorem match_sound (hsat : ∃ ρ, c.constraints ρ) (hf : f.start ≤ f.stop) (hw : f.stop < 32) (hN : N.Sat c.constraints old new)
    (hn : new.extract f.stop f.start = some n) {name : String} {k : ActKind} {b : Bool} (h : absMatch name N f k = some b) :
    matchesField c name f n k.toAct = some b := by
  have hsat' := hsat
  obtain ⟨ρ0, hρ0⟩ := hsat
  have hpos : 0 < 2 ^ n.width - 1 := by
    rw [(part_bit hf hw hN hn).1]
    have : 2 ^ 1 ≤ 2 ^ (f.stop - f.start + 1) := Nat.pow_le_pow_right (by decide) (by omega)
    omega
  cases k with
  | write m g t =>
    simp only [absMatch, ActKind.toAct, matchesField] at h ⊢
    split at h
    · rename_i h1
      rw [if_pos h1]
      split at h
      · rename_i h2
        rw [if_pos h2]
        exact test_sound hsat' hf hw hN hn h
      · rename_i h2
        rw [if_neg h2]; exact h
    · rename_i h1
      rw [if_neg h1]; exact h
  | set m g =>
    simp only [absMatch, ActKind.toAct, matchesField] at h ⊢
    split at h
    · rename_i h1
      obtain ⟨h1, rfl, rfl⟩ := h1
      simp only [h1, beq_self_eq_true, Bool.true_and]
      split at h
      · rename_i h2
        cases h
        have e : (fun ρ => n.den ρ = 2 ^ n.width - 1) = fun _ => True := by
          funext ρ; exact propext ⟨fun _ => trivial, fun _ => part_ones hf hw hN hn h2 ρ⟩
        rw [e, definitely_const hsat']; simp
      · split at h
        · rename_i h2
          cases h
          have e : (fun ρ => n.den ρ = 2 ^ n.width - 1) = fun _ => False := by
            funext ρ
            rw [part_zeros hf hw hN hn h2 ρ]
            exact propext ⟨fun h => by omega, False.elim⟩
          rw [e, definitely_const hsat']; simp
        · cases h
    · rename_i h1
      rw [← h]
      congr 1
      simp only [Bool.and_eq_false_iff, beq_eq_false_iff_ne]
      by_cases e1 : f.stop = f.start <;> by_cases e2 : m = name <;> by_cases e3 : g = f.name <;> simp_all
  | clear m g =>
    simp only [absMatch, ActKind.toAct, matchesField] at h ⊢
    split at h
    · rename_i h1
      obtain ⟨h1, rfl, rfl⟩ := h1
      simp only [h1, beq_self_eq_true, Bool.true_and]
      split at h
      · rename_i h2
        cases h
        have e : (fun ρ => n.den ρ = 0) = fun _ => True := by
          funext ρ; exact propext ⟨fun _ => trivial, fun _ => part_zeros hf hw hN hn h2 ρ⟩
        rw [e, definitely_const hsat']; simp
      · split at h
        · rename_i h2
          cases h
          have e : (fun ρ => n.den ρ = 0) = fun _ => False := by
            funext ρ
            rw [part_ones hf hw hN hn h2 ρ]
            exact propext ⟨fun h => by omega, False.elim⟩
          rw [e, definitely_const hsat']; simp
        · cases h
    · rename_i h1
      rw [← h]
      congr 1
      simp only [Bool.and_eq_false_iff, beq_eq_false_iff_ne]
      by_cases e1 : f.stop = f.start <;> by_cases e2 : m = name <;> by_cases e3 : g = f.name <;> simp_all

/-- A device after the actions `l`: only what they record has changed. -/
structure After (d : Device) (l : List String) (d' : Device) : Prop where
  regs : d'.regs = d.regs
  pci : d'.pci = d.pci
  useInit : d'.useInit = (d.useInit || l.contains "Initiate Software Reset")
  latest : d'.latest = l.getLast?.or d.latest

theorem After.refl (d : Device) : After d [] d := ⟨rfl, rfl, by simp, rfl⟩

theorem After.trans {d d' d'' : Device} {l l' : List String} (h : After d l d') (h' : After d' l' d'') : After d (l ++ l') d'' :=
  ⟨h'.regs.trans h.regs, h'.pci.trans h.pci, by rw [h'.useInit, h.useInit]; simp [Bool.or_assoc],
    by rw [h'.latest, h.latest, List.getLast?_append, Option.or_assoc]⟩

theorem field_sound (hsat : ∃ ρ, c.constraints ρ) (hf : f.start ≤ f.stop) (hw : f.stop < 32) (hN : N.Sat c.constraints old new)
    (hn : new.extract f.stop f.start = some n) {name : String} {i : Nat} {B : Bits} :
    ∀ (as : List ActSpec) (l : List String) (v : Bool) (d : Device), Knows c i d.regs B → absActs name N B f as = some l →
      ∃ d', verifyField c name i f n v d (as.map ActSpec.toAction) = some (v || !l.isEmpty, d') ∧ After d l d'
  | [], l, v, d, _, h => by cases h; exact ⟨d, by simp [verifyField], After.refl d⟩
  | a :: as, l, v, d, hB, h => by
    rw [absActs] at h
    rw [List.map_cons, verifyField]
    split at h
    · rename_i hr
      rw [if_pos (by exact hr)]
      split at h
      · cases h
      · rename_i hm
        rw [show (ActSpec.toAction a).act = a.kind.toAct from rfl, match_sound hsat hf hw hN hn hm]
        exact field_sound hsat hf hw hN hn as l v d hB h
      · rename_i hm
        rw [show (ActSpec.toAction a).act = a.kind.toAct from rfl, match_sound hsat hf hw hN hn hm]
        split at h
        · cases h
        · rename_i hp
          rw [show (ActSpec.toAction a).precond = a.precond from rfl]
          simp only [precond_sound hsat hB hp]
          exact field_sound hsat hf hw hN hn as l v d hB h
        · rename_i hp
          rw [Option.map_eq_some_iff] at h
          obtain ⟨l', hl', rfl⟩ := h
          rw [show (ActSpec.toAction a).precond = a.precond from rfl]
          simp only [precond_sound hsat hB hp]
          have step : ∃ d1, After d [a.name] d1 ∧ d1 = { (if (ActSpec.toAction a).name = "Initiate Software Reset" then { d with useInit := true } else d) with
              latest := some (ActSpec.toAction a).name
              actions := (if (ActSpec.toAction a).name = "Initiate Software Reset" then { d with useInit := true } else d).actions ++
                [((ActSpec.toAction a).name, (if (ActSpec.toAction a).name = "Initiate Software Reset" then { d with useInit := true } else d).counter)] } := by
            refine ⟨_, ?_, rfl⟩
            have e : (ActSpec.toAction a).name = a.name := rfl
            by_cases hres : a.name = "Initiate Software Reset"
            · constructor <;> simp [e, hres]
            · constructor <;> simp [e, hres, Ne.symm hres]
          obtain ⟨d1, hd1, e1⟩ := step
          rw [← e1]
          obtain ⟨d2, h2, h3⟩ := field_sound hsat hf hw hN hn as l' true d1 (by rw [hd1.regs]; exact hB) hl'
          exact ⟨d2, by rw [h2]; simp, hd1.trans h3⟩
    · rename_i hr
      rw [if_neg (by exact hr)]
      exact field_sound hsat hf hw hN hn as l v d hB h

theorem untouched_sound {name : String} {i : Nat} {m : Val} (hsat : ∃ ρ, c.constraints ρ) : ∀ (as : List ActSpec) (d : Device), untouched name f as = true →
    verifyField c name i f m true d (as.map ActSpec.toAction) = some (true, d)
  | [], d, _ => rfl
  | a :: as, d, h => by
    unfold untouched at h
    rw [List.all_cons, Bool.and_eq_true] at h
    have ih := untouched_sound (i := i) (m := m) hsat as d h.2
    have hm : matchesField c name f m a.kind.toAct = some false := by
      have h1 := h.1
      cases hk : a.kind with
      | write n g t =>
        rw [hk] at h1
        simp only [Bool.or_eq_true, bne_iff_ne] at h1
        simp only [ActKind.toAct, matchesField]
        split
        · rw [if_neg (by rintro ⟨e1, e2⟩; exact h1.elim (fun x => x e1) (fun x => x e2))]
        · rfl
      | set n g =>
        rw [hk] at h1
        simp only [Bool.or_eq_true, bne_iff_ne] at h1
        simp only [ActKind.toAct, matchesField]
        congr 1
        rcases h1 with h1 | h1 <;> simp [h1]
      | clear n g =>
        rw [hk] at h1
        simp only [Bool.or_eq_true, bne_iff_ne] at h1
        simp only [ActKind.toAct, matchesField]
        congr 1
        rcases h1 with h1 | h1 <;> simp [h1]
    rw [List.map_cons, verifyField]
    split
    · rw [show (ActSpec.toAction a).act = a.kind.toAct from rfl, hm]
      exact ih
    · exact ih

end Field

/-- The field changes: there is a bit that differs under some assignment. -/
def Changes (f : Field) (old new : Val) : Prop := ∃ ρ j, f.start ≤ j ∧ j ≤ f.stop ∧ (new.den ρ).testBit j ≠ (old.den ρ).testBit j

section Fields
variable {c : Ctx} {old new : Val} {N : Known} {trivially : Val → Val → Bool}

/-- What `verifyFields` gets for a field of the result of `absFields`. -/
def Entry (new : Val) (x : Field × Val × Val) : Prop := x.1.access ≠ .iw → new.extract x.1.stop x.1.start = some x.2.2

theorem check_iw {l : List (Field × Val × Val)} (ha : ∀ x ∈ l, x.1.access = .iw ∨ ¬ (x.1.access = .na ∨ x.1.access = .ro)) :
    (∀ x ∈ l, Entry new x) → ∃ l', checkFields l = some l' ∧ l'.map (·.1) = l.map (·.1) ∧ ∀ x ∈ l', Entry new x := by
  induction l with
  | nil => exact fun _ => ⟨[], rfl, rfl, by simp⟩
  | cons x l ih =>
    intro he
    obtain ⟨f, p, n⟩ := x
    rw [checkFields]
    by_cases h : f.access = .iw
    · rw [if_pos h]
      refine ⟨_, rfl, rfl, ?_⟩
      intro y hy
      rcases List.mem_cons.1 hy with rfl | hy
      · exact fun hne => absurd h hne
      · exact he y (List.mem_cons_of_mem _ hy)
    · rw [if_neg h, if_neg ((ha _ List.mem_cons_self).resolve_left h)]
      obtain ⟨l', h1, h2, h3⟩ := ih (fun y hy => ha y (List.mem_cons_of_mem _ hy)) fun y hy => he y (List.mem_cons_of_mem _ hy)
      refine ⟨(f, p, n) :: l', by rw [h1]; rfl, by simp [h2], ?_⟩
      intro y hy
      rcases List.mem_cons.1 hy with rfl | hy
      · exact he _ List.mem_cons_self
      · exact h3 y hy

theorem find_sound (ht : CardFaithful trivially) (hold : old.width = 32) (hN : N.Sat c.constraints old new) {name : String} {B : Bits} {as : List ActSpec} :
    ∀ (fs : List Field) (res : List (Field × List String)), absFields name N B as fs = some res →
      ∃ l, findFields trivially old new fs = some l ∧ (l.map (·.1)).Sublist (res.map (·.1)) ∧ (∀ x ∈ l, Entry new x) ∧
        ∀ f ∈ res.map (·.1), Changes f old new → f ∈ l.map (·.1)
  | [], res, h => by cases h; exact ⟨[], rfl, by simp, by simp, by simp⟩
  | f :: fs, res, h => by
    rw [absFields] at h
    split at h
    swap
    · cases h
    rename_i hf
    obtain ⟨p, hp, hp1, hp2⟩ := extract_spec (x := old) hf.1 (by rw [hold]; exact hf.2)
    obtain ⟨n, hn, hn1, hn2⟩ := extract_spec (x := new) hf.1 (by rw [hN.width]; exact hf.2)
    have drop : ∀ res', absFields name N B as fs = some res' → (∀ ρ, p.den ρ = n.den ρ) →
        ∃ l, findFields trivially old new (f :: fs) = some l ∧ (l.map (·.1)).Sublist (res'.map (·.1)) ∧ (∀ x ∈ l, Entry new x) ∧
        ∀ f ∈ res'.map (·.1), Changes f old new → f ∈ l.map (·.1) := by
      intro res' h' he
      obtain ⟨l, h1, h2, h3, h4⟩ := find_sound ht hold hN fs res' h'
      exact ⟨l, by rw [findFields, hp, hn, h1]; simp [(ht p n).2 he], h2, h3, h4⟩
    have cons : ∀ res' acts, absFields name N B as fs = some res' →
        ∃ l, findFields trivially old new (f :: fs) = some l ∧ (l.map (·.1)).Sublist (((f, acts) :: res').map (·.1)) ∧ (∀ x ∈ l, Entry new x) ∧
        ∀ g ∈ ((f, acts) :: res').map (·.1), Changes g old new → g ∈ l.map (·.1) := by
      intro res' acts h'
      obtain ⟨l, h1, h2, h3, h4⟩ := find_sound ht hold hN fs res' h'
      by_cases he : ∀ ρ, p.den ρ = n.den ρ
      · refine ⟨l, by rw [findFields, hp, hn, h1]; simp [(ht p n).2 he], h2.cons _, h3, ?_⟩
        intro g hg hc
        rw [List.map_cons, List.mem_cons] at hg
        rcases hg with e | hg
        · rw [e] at hc
          obtain ⟨ρ, j, hj1, hj2, hne⟩ := hc
          change f.start ≤ j at hj1
          change j ≤ f.stop at hj2
          have := congrArg (Nat.testBit · (j - f.start)) (he ρ)
          simp only [hp2, hn2, show j - f.start + f.start = j by omega, show j - f.start < f.stop - f.start + 1 by omega, decide_true,
            Bool.true_and] at this
          exact absurd this.symm hne
        · exact h4 g hg hc
      · have hne : trivially p n = false := by
          rw [← Bool.not_eq_true]; exact fun h => he ((ht p n).1 h)
        refine ⟨(f, p, n) :: l, by rw [findFields, hp, hn, h1]; simp [hne], by simpa using h2, ?_, ?_⟩
        · intro x hx
          rcases List.mem_cons.1 hx with rfl | hx
          · exact fun _ => hn
          · exact h3 x hx
        · intro g hg hc
          rw [List.map_cons, List.mem_cons] at hg
          rcases hg with rfl | hg
          · simp
          · exact List.mem_cons_of_mem _ (h4 g hg hc)
    split at h
    · rename_i hk
      refine drop res h fun ρ => Nat.eq_of_testBit_eq fun j => ?_
      rw [hp2, hn2]
      by_cases hj : j < f.stop - f.start + 1
      · rw [hN.keep _ ρ (within_bit hk ((mask_bit hf.1).2 ⟨by omega, by omega⟩))]
      · simp [hj]
    · split at h
      · split at h
        · rw [Option.map_eq_some_iff] at h
          obtain ⟨res', h', rfl⟩ := h
          exact cons res' [] h'
        · cases h
      · split at h
        · cases h
        · split at h
          · rename_i a l _
            rw [Option.map_eq_some_iff] at h
            obtain ⟨res', h', rfl⟩ := h
            exact cons res' (a :: l) h'
          · cases h

/-- The facts about an entry of the result of `absFields`. -/
theorem absFields_mem {name : String} {B : Bits} {as : List ActSpec} : ∀ {fs : List Field} {res : List (Field × List String)},
    absFields name N B as fs = some res → ∀ x ∈ res, x.1.start ≤ x.1.stop ∧ x.1.stop < 32 ∧
      ((x.1.access = .iw ∧ untouched name x.1 as = true ∧ x.2 = []) ∨
        (x.1.access ≠ .iw ∧ ¬ (x.1.access = .na ∨ x.1.access = .ro) ∧ absActs name N B x.1 as = some x.2 ∧ x.2 ≠ []))
  | [], res, h, x, hx => by cases h; simp at hx
  | f :: fs, res, h, x, hx => by
    rw [absFields] at h
    split at h
    swap
    · cases h
    rename_i hf
    split at h
    · exact absFields_mem h x hx
    · split at h
      · rename_i hi
        split at h
        · rename_i hu
          rw [Option.map_eq_some_iff] at h
          obtain ⟨res', h', rfl⟩ := h
          rcases List.mem_cons.1 hx with rfl | hx
          · exact ⟨hf.1, hf.2, .inl ⟨hi, hu, rfl⟩⟩
          · exact absFields_mem h' x hx
        · cases h
      · rename_i hi
        split at h
        · cases h
        · rename_i ha
          split at h
          · rename_i a l hl
            rw [Option.map_eq_some_iff] at h
            obtain ⟨res', h', rfl⟩ := h
            rcases List.mem_cons.1 hx with rfl | hx
            · exact ⟨hf.1, hf.2, .inr ⟨hi, ha, hl, by simp⟩⟩
            · exact absFields_mem h' x hx
          · cases h

theorem verify_sound (hsat : ∃ ρ, c.constraints ρ) (hN : N.Sat c.constraints old new) {name : String} {i : Nat} {B : Bits} {as : List ActSpec}
    {res : List (Field × List String)} (hres : ∀ x ∈ res, x.1.start ≤ x.1.stop ∧ x.1.stop < 32 ∧
      ((x.1.access = .iw ∧ untouched name x.1 as = true ∧ x.2 = []) ∨
        (x.1.access ≠ .iw ∧ ¬ (x.1.access = .na ∨ x.1.access = .ro) ∧ absActs name N B x.1 as = some x.2 ∧ x.2 ≠ []))) :
    ∀ (l : List (Field × Val × Val)) (d : Device), (∀ x ∈ l, Entry new x) → (∀ x ∈ l, x.1 ∈ res.map (·.1)) → Knows c i d.regs B →
      ∃ d' L, verifyFields c (as.map ActSpec.toAction) name i d l = some d' ∧ After d L d' ∧ (∀ a ∈ L, ∃ x ∈ res, a ∈ x.2) ∧ (l = [] → L = []) ∧
        (∀ f a, res = [(f, [a])] → l.map (·.1) = [f] → L = [a])
  | [], d, _, _, _ => ⟨d, [], rfl, After.refl d, by simp, by simp, by simp⟩
  | (f, p, n) :: l, d, he, hm, hB => by
    obtain ⟨⟨f', acts⟩, hx, (rfl : f' = f)⟩ := List.mem_map.1 (hm _ List.mem_cons_self)
    have tail := fun (d : Device) (hB : Knows c i d.regs B) => verify_sound hsat hN hres l d (fun x hx => he x (List.mem_cons_of_mem _ hx)) (fun x hx => hm x (List.mem_cons_of_mem _ hx)) hB
    obtain ⟨h1, h2, h3⟩ := hres _ hx
    rw [verifyFields]
    rcases h3 with ⟨hi, hu, he0⟩ | ⟨hi, -, hl, hne⟩
    · simp only at hi hu he0
      rw [hi]
      simp only [beq_self_eq_true, untouched_sound hsat as d hu]
      obtain ⟨d', L, t1, t2, t3, -⟩ := tail d hB
      refine ⟨d', L, t1, t2, t3, by simp, ?_⟩
      rintro g a rfl hg
      simp only [List.mem_singleton, Prod.mk.injEq] at hx
      rw [he0] at hx
      exact absurd hx.2 (by simp)
    · simp only at hi hl hne h1 h2
      obtain ⟨d1, e1, e2⟩ := field_sound hsat h1 h2 hN (he _ List.mem_cons_self hi) as acts (f'.access == .iw) d hB hl
      have : (!acts.isEmpty) = true := by
        cases acts
        · exact absurd rfl hne
        · rfl
      rw [e1, this, Bool.or_true]
      obtain ⟨d', L, t1, t2, t3, t4, -⟩ := tail d1 (by rw [e2.regs]; exact hB)
      refine ⟨d', acts ++ L, t1, e2.trans t2, ?_, by simp, ?_⟩
      · intro a ha
        rcases List.mem_append.1 ha with ha | ha
        · exact ⟨_, hx, ha⟩
        · exact t3 a ha
      · rintro g a rfl hg
        simp only [List.mem_singleton, Prod.mk.injEq] at hx
        simp only [List.map_cons, List.cons.injEq, List.map_eq_nil_iff] at hg
        rw [t4 hg.2, hx.2]; rfl

end Fields

end Card

end Verif.Props
