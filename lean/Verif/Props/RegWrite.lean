/-
C52: writes to device registers. The specification: the bits of a field as a number, what an action covers, and the truth of
a precondition in terms of single bits of registers.
-/
import Verif.Props.RegField

set_option autoImplicit false

namespace Verif.Props
open Verif.Tool.Registers
open RegField

/-- The content of a field. -/
def content (f : Field) (x : Val) (ρ : Env) : Nat := x.den ρ / 2 ^ f.start % 2 ^ (f.stop - f.start + 1)

/-- What an action allows: writing `new` to the field, under all assignments that the path allows. -/
def Covers (c : Ctx) (reg : String) (f : Field) (new : Val) : Act → Prop
  | .write n g valid => n = reg ∧ g = f.name ∧ ∀ ρ, c.constraints ρ → valid (content f new ρ) = true
  | .set n g => n = reg ∧ g = f.name ∧ ∀ ρ, c.constraints ρ → content f new ρ = 1
  | .clear n g => n = reg ∧ g = f.name ∧ ∀ ρ, c.constraints ρ → content f new ρ = 0

mutual
/-- The truth of a precondition, given the bits of the registers. -/
def condTrue (rd : String → String → Bool) : Cond → Bool
  | .reg n f => rd n f
  | .not a => !condTrue rd a
  | .or l => someTrue rd l
  | .and l => allTrue rd l
def someTrue (rd : String → String → Bool) : List Cond → Bool
  | [] => false
  | a :: l => condTrue rd a || someTrue rd l
def allTrue (rd : String → String → Bool) : List Cond → Bool
  | [] => true
  | a :: l => condTrue rd a && allTrue rd l
end

/-- The first bit of a field of a register of the device. -/
def bitOf (c : Ctx) (d : Device) (index : Nat) (ρ : Env) (name field : String) : Bool :=
  match c.regs.get name with
  | some r =>
    match d.regs name (r.slot index), r.field field with
    | some v, some f => (v.den ρ).testBit f.start
    | _, _ => false
  | none =>
    match c.pci.get name with
    | none => false
    | some r =>
      match d.pci name (r.slot index), r.field field with
      | some v, some f => (v.den ρ).testBit f.start
      | _, _ => false

/-- A store in which some registers that were not used before have got their value for unused registers. -/
def Initialised (t : Table) (fresh : String → Nat → Nat) (st st' : Store) : Prop :=
  ∀ n i, st' n i = st n i ∨ (st n i = none ∧ ∃ r index u v st0, t.get n = some r ∧ i = r.slot index ∧
    fetch fresh u (fun _ _ => none) n index r = some (v, st0) ∧ st' n i = some v)

/-- The same for a device. -/
def SameRegisters (c : Ctx) (d d' : Device) : Prop :=
  Initialised c.regs c.fresh d.regs d'.regs ∧ Initialised c.pci c.freshPci d.pci d'.pci

/-- The write of a field is justified: an action covers it, and its precondition is true under all assignments that the path
allows, in the registers as they are before the write. -/
def Justified (c : Ctx) (actions : List Action) (d : Device) (reg : String) (index : Nat) (f : Field) (new : Val) : Prop :=
  ∃ a ∈ actions, Covers c reg f new a.act ∧ ∀ p, a.precond = some p →
    ∃ d', SameRegisters c d d' ∧ ∀ ρ, c.constraints ρ → condTrue (bitOf c d' index ρ) p = true

/-- The fields in preconditions are single bits. -/
def OneBit (c : Ctx) (name field : String) : Prop :=
  (∀ r f, c.regs.get name = some r → r.field field = some f → f.start = f.stop) ∧
  (∀ r f, c.pci.get name = some r → r.field field = some f → f.start = f.stop)

mutual
def Single (c : Ctx) : Cond → Prop
  | .reg n f => OneBit c n f
  | .not a => Single c a
  | .or l => Singles c l
  | .and l => Singles c l
def Singles (c : Ctx) : List Cond → Prop
  | [] => True
  | a :: l => Single c a ∧ Singles c l
end

namespace RegWrite

theorem initialised_refl (t : Table) (fresh : String → Nat → Nat) (st : Store) : Initialised t fresh st st := fun _ _ => .inl rfl

theorem initialised_trans {t : Table} {fresh : String → Nat → Nat} {a b c : Store} (h : Initialised t fresh a b) (h' : Initialised t fresh b c) :
    Initialised t fresh a c := by
  intro n i
  rcases h' n i with e | ⟨e, r, index, u, v, st0, h1, h2, h3, h4⟩
  · rw [e]; exact h n i
  · right
    refine ⟨?_, r, index, u, v, st0, h1, h2, h3, h4⟩
    rcases h n i with e' | ⟨e', -⟩
    · rw [← e', e]
    · exact e'

theorem initialised_some {t : Table} {fresh : String → Nat → Nat} {a b : Store} (h : Initialised t fresh a b) {n : String} {i : Nat} {v : Val}
    (hv : a n i = some v) : b n i = some v := by
  rcases h n i with e | ⟨e, -⟩
  · rw [e, hv]
  · rw [hv] at e; cases e

theorem same_refl (c : Ctx) (d : Device) : SameRegisters c d d := ⟨initialised_refl _ _ _, initialised_refl _ _ _⟩

theorem same_trans {c : Ctx} {d e f : Device} (h : SameRegisters c d e) (h' : SameRegisters c e f) : SameRegisters c d f :=
  ⟨initialised_trans h.1 h'.1, initialised_trans h.2 h'.2⟩

theorem fetch_initialised {t : Table} {fresh : String → Nat → Nat} {u : Bool} {st st' : Store} {name : String} {index : Nat} {r : Reg} {v : Val}
    (ht : t.get name = some r) (h : fetch fresh u st name index r = some (v, st')) :
    Initialised t fresh st st' ∧ st' name (r.slot index) = some v := by
  unfold fetch at h
  cases hs : st name (r.slot index) with
  | some w =>
    rw [hs] at h; simp only [Option.some.injEq, Prod.mk.injEq] at h
    obtain ⟨rfl, rfl⟩ := h
    exact ⟨initialised_refl _ _ _, hs⟩
  | none =>
    rw [hs] at h
    simp only [Option.map_eq_some_iff, Prod.mk.injEq] at h
    obtain ⟨w, hw, rfl, rfl⟩ := h
    refine ⟨fun n i => ?_, by simp [update]⟩
    by_cases hn : n = name ∧ i = r.slot index
    · obtain ⟨rfl, rfl⟩ := hn
      exact .inr ⟨hs, r, index, u, w, update (fun _ _ => none) n index r w, ht, rfl, by
        unfold fetch; simp only [hw, Option.map_some], by simp [update]⟩
    · left; simp only [update, if_neg hn]

theorem testBit_den_one {x y : Val} {s : Nat} (h : x.extract s s = some y) (ρ : Env) :
    y.width = 1 ∧ y.den ρ = ((x.den ρ).testBit s).toNat := by
  have hlt : s < x.width := by
    by_contra hn
    unfold Val.extract at h
    rw [if_neg (by omega)] at h
    cases h
  obtain ⟨z, hz, hw, hb⟩ := extract_spec (x := x) (Nat.le_refl s) hlt
  rw [h, Option.some.injEq] at hz
  subst hz
  have hw1 : y.width = 1 := by omega
  refine ⟨hw1, ?_⟩
  have h0 := hb ρ 0
  have hl := den_lt y ρ
  rw [hw1] at hl
  simp only [Nat.sub_self, Nat.zero_add, Nat.lt_one_iff, decide_true, Bool.true_and] at h0
  rw [← h0]
  generalize y.den ρ = k at hl
  match k, hl with
  | 0, _ => rfl
  | 1, _ => rfl

mutual
theorem evalCond_spec (c : Ctx) (index : Nat) : ∀ (p : Cond) (d d1 : Device) (x : Val), Single c p → evalCond c index d p = some (x, d1) →
    SameRegisters c d d1 ∧ x.width = 1 ∧ ∀ d2, SameRegisters c d1 d2 → ∀ ρ, x.den ρ = (condTrue (bitOf c d2 index ρ) p).toNat
  | .reg name field, d, d1, x, hs, h => by
    rw [evalCond] at h
    cases hr : c.regs.get name with
    | some r =>
      rw [hr] at h
      simp only at h
      cases hf : fetch c.fresh d.useInit d.regs name index r with
      | none => rw [hf] at h; cases h
      | some vs =>
        obtain ⟨v, st⟩ := vs
        cases hg : r.field field with
        | none => rw [hf, hg] at h; cases h
        | some f =>
          rw [hf, hg] at h
          simp only [Option.map_eq_some_iff, Prod.mk.injEq] at h
          obtain ⟨y, hy, rfl, rfl⟩ := h
          obtain ⟨hi, hv⟩ := fetch_initialised hr hf
          rw [← hs.1 r f hr hg] at hy
          refine ⟨⟨hi, initialised_refl _ _ _⟩, (testBit_den_one hy fun _ => 0).1, fun d2 h2 ρ => ?_⟩
          rw [(testBit_den_one hy ρ).2]
          simp only [condTrue, bitOf, hr, hg, initialised_some h2.1 hv]
    | none =>
      rw [hr] at h
      simp only at h
      cases hp : c.pci.get name with
      | none => rw [hp] at h; cases h
      | some r =>
        rw [hp] at h
        simp only at h
        cases hf : fetch c.freshPci d.useInit d.pci name index r with
        | none => rw [hf] at h; cases h
        | some vs =>
          obtain ⟨v, st⟩ := vs
          cases hg : r.field field with
          | none => rw [hf, hg] at h; cases h
          | some f =>
            rw [hf, hg] at h
            simp only [Option.map_eq_some_iff, Prod.mk.injEq] at h
            obtain ⟨y, hy, rfl, rfl⟩ := h
            obtain ⟨hi, hv⟩ := fetch_initialised hp hf
            rw [← hs.2 r f hp hg] at hy
            refine ⟨⟨initialised_refl _ _ _, hi⟩, (testBit_den_one hy fun _ => 0).1, fun d2 h2 ρ => ?_⟩
            rw [(testBit_den_one hy ρ).2]
            simp only [condTrue, bitOf, hr, hp, hg, initialised_some h2.2 hv]
  | .not a, d, d1, x, hs, h => by
    rw [evalCond] at h
    cases ha : evalCond c index d a with
    | none => rw [ha] at h; cases h
    | some yd =>
      obtain ⟨y, d'⟩ := yd
      rw [ha] at h
      simp only [Option.some.injEq, Prod.mk.injEq] at h
      obtain ⟨rfl, rfl⟩ := h
      obtain ⟨h1, h2, h3⟩ := evalCond_spec c index a d _ y hs ha
      refine ⟨h1, h2, fun d2 hd ρ => ?_⟩
      change (2 ^ y.width - 1 - y.den ρ) % 2 ^ y.width = _
      rw [h2, h3 d2 hd ρ, condTrue]
      cases condTrue (bitOf c d2 index ρ) a <;> rfl
  | .or l, d, d1, x, hs, h => by
    rw [evalCond] at h
    obtain ⟨h1, h2, h3⟩ := evalConds_spec c index (· ||| ·) or (by decide) l (.bvv 1 0) (fun _ => false) d d1 x hs rfl (fun _ => rfl) h
    refine ⟨h1, h2, fun d2 hd ρ => ?_⟩
    rw [h3 d2 hd ρ, condTrue]
    congr 1
    have key : ∀ (l : List Cond) (b : Bool), l.foldl (fun b p => b || condTrue (bitOf c d2 index ρ) p) b = (b || someTrue (bitOf c d2 index ρ) l) := by
      intro l
      induction l with
      | nil => simp [someTrue]
      | cons a l ih => intro b; rw [List.foldl_cons, ih, someTrue, Bool.or_assoc]
    exact (key l false).trans (Bool.false_or _)
  | .and l, d, d1, x, hs, h => by
    rw [evalCond] at h
    obtain ⟨h1, h2, h3⟩ := evalConds_spec c index (· &&& ·) and (by decide) l (.bvv 1 1) (fun _ => true) d d1 x hs rfl (fun _ => rfl) h
    refine ⟨h1, h2, fun d2 hd ρ => ?_⟩
    rw [h3 d2 hd ρ, condTrue]
    congr 1
    have key : ∀ (l : List Cond) (b : Bool), l.foldl (fun b p => b && condTrue (bitOf c d2 index ρ) p) b = (b && allTrue (bitOf c d2 index ρ) l) := by
      intro l
      induction l with
      | nil => simp [allTrue]
      | cons a l ih => intro b; rw [List.foldl_cons, ih, allTrue, Bool.and_assoc]
    exact (key l true).trans (Bool.true_and _)
theorem evalConds_spec (c : Ctx) (index : Nat) (op : Nat → Nat → Nat) (bop : Bool → Bool → Bool)
    (hop : ∀ a b : Bool, op a.toNat b.toNat = (bop a b).toNat) :
    ∀ (l : List Cond) (acc : Val) (b : Env → Bool) (d d1 : Device) (x : Val), Singles c l → acc.width = 1 → (∀ ρ, acc.den ρ = (b ρ).toNat) →
    evalConds c index op acc d l = some (x, d1) →
    SameRegisters c d d1 ∧ x.width = 1 ∧ ∀ d2, SameRegisters c d1 d2 → ∀ ρ,
      x.den ρ = (l.foldl (fun b p => bop b (condTrue (bitOf c d2 index ρ) p)) (b ρ)).toNat
  | [], acc, b, d, d1, x, _, hw, hb, h => by
    rw [evalConds] at h
    simp only [Option.some.injEq, Prod.mk.injEq] at h
    obtain ⟨rfl, rfl⟩ := h
    exact ⟨same_refl _ _, hw, fun d2 _ ρ => hb ρ⟩
  | a :: l, acc, b, d, d1, x, hs, hw, hb, h => by
    rw [evalConds] at h
    cases ha : evalCond c index d a with
    | none => rw [ha] at h; cases h
    | some yd =>
      obtain ⟨y, d'⟩ := yd
      obtain ⟨h1, h2, h3⟩ := evalCond_spec c index a d d' y hs.1 ha
      rw [ha] at h
      simp only [bitwise, hw, h2, if_pos] at h
      obtain ⟨g1, g2, g3⟩ := evalConds_spec c index op bop hop l _ (fun ρ => bop (b ρ) (condTrue (bitOf c d' index ρ) a)) d' d1 x hs.2 rfl
        (fun ρ => by
          change op (acc.den ρ) (y.den ρ) % 2 ^ 1 = _
          rw [hb, h3 d' (same_refl _ _) ρ, hop]
          cases bop (b ρ) (condTrue (bitOf c d' index ρ) a) <;> rfl) h
      refine ⟨same_trans h1 g1, g2, fun d2 hd ρ => ?_⟩
      rw [g3 d2 hd ρ, List.foldl_cons]
      have e : condTrue (bitOf c d' index ρ) a = condTrue (bitOf c d2 index ρ) a := by
        have e1 := h3 d' (same_refl _ _) ρ
        have e2 := h3 d2 (same_trans g1 hd) ρ
        rw [e1] at e2
        revert e2
        cases condTrue (bitOf c d' index ρ) a <;> cases condTrue (bitOf c d2 index ρ) a <;> simp
      rw [e]
end

theorem definitely_iff (c : Ctx) (p : Env → Prop) : definitely c p = true ↔ ∀ ρ, c.constraints ρ → p ρ := by
  unfold definitely
  rw [@decide_eq_true_iff _ (Classical.propDecidable _)]

theorem precond_spec {c : Ctx} {index : Nat} {d d1 : Device} {pre : Option Cond} {b : Bool} (hs : ∀ p, pre = some p → Single c p)
    (h : precondHolds c index d pre = some (b, d1)) :
    SameRegisters c d d1 ∧ (b = true → ∀ p, pre = some p → ∀ ρ, c.constraints ρ → condTrue (bitOf c d1 index ρ) p = true) := by
  cases pre with
  | none =>
    simp only [precondHolds, Option.some.injEq, Prod.mk.injEq] at h
    obtain ⟨-, rfl⟩ := h
    exact ⟨same_refl _ _, fun _ p hp => by cases hp⟩
  | some p =>
    rw [precondHolds] at h
    cases he : evalCond c index d p with
    | none => rw [he] at h; cases h
    | some xd =>
      obtain ⟨x, d'⟩ := xd
      rw [he] at h
      simp only [Option.some.injEq, Prod.mk.injEq] at h
      obtain ⟨hb, rfl⟩ := h
      obtain ⟨h1, h2, h3⟩ := evalCond_spec c index p d d' x (hs p rfl) he
      refine ⟨h1, fun hbt q hq ρ hρ => ?_⟩
      cases hq
      rw [hbt, definitely_iff] at hb
      have := hb ρ hρ
      rw [h3 d' (same_refl _ _) ρ, h2] at this
      revert this
      cases condTrue (bitOf c d' index ρ) p <;> simp

theorem evalOne_true {c : Ctx} {p : Env → Bool} (h : evalOne c p = some true) : ∀ ρ, c.constraints ρ → p ρ = true := by
  unfold evalOne at h
  split at h
  · rename_i hh; exact hh.2
  · split at h <;> simp at h

theorem extract_content {x y : Val} {f : Field} (h : x.extract f.stop f.start = some y) (ρ : Env) :
    y.width = f.stop - f.start + 1 ∧ y.den ρ = content f x ρ := by
  unfold Val.extract at h
  split at h
  · cases x <;> cases h <;> exact ⟨rfl, rfl⟩
  · cases h

theorem matches_spec {c : Ctx} {reg : String} {f : Field} {value new : Val} {a : Act} (hn : value.extract f.stop f.start = some new)
    (h : matchesField c reg f new a = some true) : Covers c reg f value a := by
  cases a with
  | write n g valid =>
    simp only [matchesField] at h
    split at h
    · split at h
      · rename_i hh
        refine ⟨hh.1, hh.2, fun ρ hρ => ?_⟩
        have := evalOne_true h ρ hρ
        rwa [(extract_content hn ρ).2] at this
      · cases h
    · cases h
  | set n g =>
    simp only [matchesField, Option.some.injEq, Bool.and_eq_true, beq_iff_eq, definitely_iff] at h
    obtain ⟨⟨⟨h0, h1⟩, h2⟩, h3⟩ := h
    refine ⟨h1, h2, fun ρ hρ => ?_⟩
    have := h3 ρ hρ
    rw [(extract_content hn ρ).1, (extract_content hn ρ).2, h0, Nat.sub_self] at this
    exact this
  | clear n g =>
    simp only [matchesField, Option.some.injEq, Bool.and_eq_true, beq_iff_eq, definitely_iff] at h
    obtain ⟨⟨⟨h0, h1⟩, h2⟩, h3⟩ := h
    refine ⟨h1, h2, fun ρ hρ => ?_⟩
    have := h3 ρ hρ
    rwa [(extract_content hn ρ).2] at this

theorem verifyField_spec {c : Ctx} {reg : String} {index : Nat} {f : Field} {value new : Val} :
    ∀ (as : List Action) (valid : Bool) (d d1 : Device) (b : Bool),
    (∀ a ∈ as, ∀ p, a.precond = some p → Single c p) → verifyField c reg index f new valid d as = some (b, d1) →
    SameRegisters c d d1 ∧ (value.extract f.stop f.start = some new → b = true → valid = true ∨ Justified c as d reg index f value)
  | [], valid, d, d1, b, _, h => by
    simp only [verifyField, Option.some.injEq, Prod.mk.injEq] at h
    obtain ⟨rfl, rfl⟩ := h
    exact ⟨same_refl _ _, fun _ hb => .inl hb⟩
  | a :: as, valid, d, d1, b, hs, h => by
    have hs' : ∀ a ∈ as, ∀ p, a.precond = some p → Single c p := fun a' ha' => hs a' (by simp [ha'])
    have lift : ∀ d', SameRegisters c d d' → Justified c as d' reg index f value → Justified c (a :: as) d reg index f value := by
      rintro d' hd ⟨a', ha', hc, hp⟩
      refine ⟨a', by simp [ha'], hc, fun p hpp => ?_⟩
      obtain ⟨d'', h1, h2⟩ := hp p hpp
      exact ⟨d'', same_trans hd h1, h2⟩
    rw [verifyField] at h
    by_cases hr : a.act.register = reg
    · rw [if_pos hr] at h
      cases hm : matchesField c reg f new a.act with
      | none => rw [hm] at h; cases h
      | some m =>
        rw [hm] at h
        cases m with
        | false =>
          obtain ⟨h1, h2⟩ := verifyField_spec as valid d d1 b hs' h
          exact ⟨h1, fun hn hb => (h2 hn hb).imp_right (lift d (same_refl _ _))⟩
        | true =>
          simp only at h
          cases hp : precondHolds c index d a.precond with
          | none => rw [hp] at h; cases h
          | some bd =>
            obtain ⟨b', d'⟩ := bd
            obtain ⟨k1, k2⟩ := precond_spec (hs a (by simp)) hp
            rw [hp] at h
            cases b' with
            | false =>
              obtain ⟨h1, h2⟩ := verifyField_spec as valid d' d1 b hs' h
              exact ⟨same_trans k1 h1, fun hn hb => (h2 hn hb).imp_right (lift d' k1)⟩
            | true =>
              simp only at h
              obtain ⟨h1, -⟩ := verifyField_spec (value := value) as true _ d1 b hs' h
              refine ⟨same_trans k1 ?_, fun hn _ => .inr ⟨a, by simp, matches_spec hn hm, fun p hpp => ⟨d', k1, k2 rfl p hpp⟩⟩⟩
              by_cases hreset : a.name = "Initiate Software Reset"
              · simp only [if_pos hreset] at h1; exact h1
              · simp only [if_neg hreset] at h1; exact h1
    · rw [if_neg hr] at h
      obtain ⟨h1, h2⟩ := verifyField_spec as valid d d1 b hs' h
      exact ⟨h1, fun hn hb => (h2 hn hb).imp_right (lift d (same_refl _ _))⟩

theorem verifyFields_spec {c : Ctx} {actions : List Action} {reg : String} {index : Nat} {value : Val}
    (hs : ∀ a ∈ actions, ∀ p, a.precond = some p → Single c p) :
    ∀ (l : List (Field × Val × Val)) (d d1 : Device), verifyFields c actions reg index d l = some d1 →
    ∀ e ∈ l, value.extract e.1.stop e.1.start = some e.2.2 → e.1.access = .iw ∨ Justified c actions d reg index e.1 value
  | [], _, _, _, e, he, _ => by simp at he
  | (f, p, n) :: l, d, d1, h, e, he, hn => by
    rw [verifyFields] at h
    cases hv : verifyField c reg index f n (f.access == .iw) d actions with
    | none => rw [hv] at h; cases h
    | some bd =>
      obtain ⟨b, d'⟩ := bd
      rw [hv] at h
      cases b with
      | false => cases h
      | true =>
        obtain ⟨h1, h2⟩ := verifyField_spec (value := value) actions _ d d' true hs hv
        rcases List.mem_cons.mp he with rfl | he
        · exact (h2 hn rfl).imp_left fun hb => by simpa using hb
        · refine (verifyFields_spec hs l d' d1 h e he hn).imp_right ?_
          rintro ⟨a, ha, hc, hp⟩
          refine ⟨a, ha, hc, fun p hpp => ?_⟩
          obtain ⟨d'', g1, g2⟩ := hp p hpp
          exact ⟨d'', same_trans h1 g1, g2⟩

theorem findFields_mem {trivially : Val → Val → Bool} {prev new : Val} :
    ∀ (fs : List Field) (l : List (Field × Val × Val)), findFields trivially prev new fs = some l → ∀ f ∈ fs,
    ∃ p n, prev.extract f.stop f.start = some p ∧ new.extract f.stop f.start = some n ∧ (trivially p n = true ∨ (f, p, n) ∈ l)
  | [], _, _, f, hf => by simp at hf
  | g :: fs, l, h, f, hf => by
    rw [findFields] at h
    split at h
    · rename_i p n l' hp hn hl
      simp only [Option.some.injEq] at h
      rcases List.mem_cons.mp hf with rfl | hf
      · refine ⟨p, n, hp, hn, ?_⟩
        by_cases ht : trivially p n = true
        · exact .inl ht
        · right; rw [← h, if_neg ht]; simp
      · obtain ⟨p', n', h1, h2, h3⟩ := findFields_mem fs l' hl f hf
        refine ⟨p', n', h1, h2, h3.imp_right fun hm => ?_⟩
        rw [← h]
        split <;> simp [hm]
    · cases h

/-- All listed fields are fields of the register, in order. -/
theorem findFields_sublist {trivially : Val → Val → Bool} {prev new : Val} :
    ∀ (fs : List Field) (l : List (Field × Val × Val)), findFields trivially prev new fs = some l → (l.map (·.1)).Sublist fs
  | [], l, h => by simp only [findFields, Option.some.injEq] at h; subst h; simp
  | g :: fs, l, h => by
    rw [findFields] at h
    split at h
    · rename_i p n l' hp hn hl
      simp only [Option.some.injEq] at h
      have ih := findFields_sublist fs l' hl
      rw [← h]
      split
      · exact ih.cons _
      · exact ih.cons_cons _
    · cases h

theorem checkFields_mem : ∀ (l l' : List (Field × Val × Val)), checkFields l = some l' → ∀ e ∈ l, e.1.access ≠ .iw → e ∈ l'
  | [], _, _, e, he, _ => by simp at he
  | (f, p, n) :: l, l', h, e, he, hne => by
    rw [checkFields] at h
    split at h
    · rename_i hiw
      simp only [Option.some.injEq] at h
      rcases List.mem_cons.mp he with rfl | he
      · exact absurd hiw hne
      · rw [← h]; simp [he]
    · split at h
      · cases h
      · simp only [Option.map_eq_some_iff] at h
        obtain ⟨l2, hl2, rfl⟩ := h
        rcases List.mem_cons.mp he with rfl | he
        · simp
        · simp [checkFields_mem l l2 hl2 e he hne]

theorem checkFields_access : ∀ (l l' : List (Field × Val × Val)), checkFields l = some l' →
    (l.map (·.1)).Pairwise (fun f g => f.access = .iw → g.access ≠ .na ∧ g.access ≠ .ro) → ∀ e ∈ l, e.1.access ≠ .na ∧ e.1.access ≠ .ro
  | [], _, _, _, e, he => by simp at he
  | (f, p, n) :: l, l', h, hp, e, he => by
    rw [List.map_cons, List.pairwise_cons] at hp
    rw [checkFields] at h
    split at h
    · rename_i hiw
      rcases List.mem_cons.mp he with rfl | he
      · change f.access = .iw at hiw
        simp [hiw]
      · exact hp.1 e.1 (List.mem_map_of_mem he) hiw
    · split at h
      · cases h
      · rename_i hna
        simp only [Option.map_eq_some_iff] at h
        obtain ⟨l2, hl2, rfl⟩ := h
        rcases List.mem_cons.mp he with rfl | he
        · simpa using hna
        · exact checkFields_access l l2 hl2 hp.2 e he

end RegWrite

open RegWrite

/-- What an accepted write went through. -/
theorem RegWrite.write_steps {c : Ctx} {trivially : Val → Val → Bool} {actions : List Action} {d d' : Device} {reg : String} {index : Nat}
    {value : Val} {r : Reg} {old : Val} {st : Store} (hr : c.regs.get reg = some r)
    (hold : fetch c.fresh d.useInit d.regs reg index r = some (old, st)) (h : write c trivially actions d reg index value = some d') :
    ∃ l l' d1, findFields trivially old value r.fields = some l ∧ checkFields l = some l' ∧
      verifyFields c actions reg index { d with regs := st } l' = some d1 := by
  simp only [write, hr, hold] at h
  cases hl : findFields trivially old value r.fields with
  | none => rw [hl] at h; cases h
  | some l =>
    rw [hl] at h
    simp only at h
    cases hc : checkAccess r l with
    | none => rw [hc] at h; cases h
    | some l' =>
      rw [hc] at h
      simp only at h
      cases hv : verifyWrite c actions reg index { d with regs := st } l' with
      | none => rw [hv] at h; cases h
      | some d1 =>
        simp only [verifyWrite, Option.map_eq_some_iff] at hv
        obtain ⟨d2, hd2, -⟩ := hv
        refine ⟨l, l', d2, rfl, ?_, hd2⟩
        unfold checkAccess at hc
        split at hc
        · cases hc
        · exact hc

/-- C52, actions: if a write is accepted, each field that it can change, other than those on which writes are ignored, is
covered by an action whose precondition is true in the registers as they were before. -/
theorem C52_justified (c : Ctx) (trivially : Val → Val → Bool) (actions : List Action) (d d' : Device) (reg : String) (index : Nat)
    (value : Val) (r : Reg) (old : Val) (st : Store)
    (ht : ∀ a b, trivially a b = true → ∀ ρ, a.den ρ = b.den ρ)
    (hs : ∀ a ∈ actions, ∀ p, a.precond = some p → Single c p)
    (hr : c.regs.get reg = some r) (hold : fetch c.fresh d.useInit d.regs reg index r = some (old, st))
    (h : write c trivially actions d reg index value = some d') :
    ∀ f ∈ r.fields, (∃ ρ, c.constraints ρ ∧ content f old ρ ≠ content f value ρ) → f.access ≠ .iw →
      Justified c actions d reg index f value := by
  rintro f hf ⟨ρ, -, hne⟩ hiw
  obtain ⟨l, l', d1, h1, h2, h3⟩ := write_steps hr hold h
  obtain ⟨p, n, hp, hn, hm⟩ := findFields_mem _ _ h1 f hf
  rcases hm with hm | hm
  · refine absurd ?_ hne
    rw [← (extract_content hp ρ).2, ← (extract_content hn ρ).2, ht _ _ hm]
  · rcases verifyFields_spec (value := value) hs l' _ d1 h3 (f, p, n) (checkFields_mem l l' h2 _ hm hiw) hn with hh | ⟨a, ha, hc, hp⟩
    · exact absurd hh hiw
    · refine ⟨a, ha, hc, fun q hq => ?_⟩
      obtain ⟨d'', g1, g2⟩ := hp q hq
      exact ⟨d'', same_trans (e := { d with regs := st }) ⟨(fetch_initialised hr hold).1, initialised_refl _ _ _⟩ g1, g2⟩

/-- C52, access: if a write is accepted, no field that it can change is read-only or without access. Missing: registers in
which such a field comes after one on which writes are ignored; `C52_read_only_changed` shows that it fails for them. -/
theorem C52_access_partial (c : Ctx) (trivially : Val → Val → Bool) (actions : List Action) (d d' : Device) (reg : String) (index : Nat)
    (value : Val) (r : Reg) (old : Val) (st : Store)
    (ht : ∀ a b, trivially a b = true → ∀ ρ, a.den ρ = b.den ρ)
    (ho : r.fields.Pairwise fun f g => f.access = .iw → g.access ≠ .na ∧ g.access ≠ .ro)
    (hr : c.regs.get reg = some r) (hold : fetch c.fresh d.useInit d.regs reg index r = some (old, st))
    (h : write c trivially actions d reg index value = some d') :
    ∀ f ∈ r.fields, (∃ ρ, c.constraints ρ ∧ content f old ρ ≠ content f value ρ) → f.access ≠ .na ∧ f.access ≠ .ro := by
  rintro f hf ⟨ρ, -, hne⟩
  obtain ⟨l, l', d1, h1, h2, -⟩ := write_steps hr hold h
  obtain ⟨p, n, hp, hn, hm⟩ := findFields_mem _ _ h1 f hf
  rcases hm with hm | hm
  · refine absurd ?_ hne
    rw [← (extract_content hp ρ).2, ← (extract_content hn ρ).2, ht _ _ hm]
  · exact checkFields_access l l' h2 (ho.sublist (findFields_sublist _ _ h1)) _ hm

namespace RegWriteExample

theorem evalOne_of {c : Ctx} {p : Env → Bool} (ρ : Env) (h : c.constraints ρ) (hp : ∀ ρ, c.constraints ρ → p ρ = true) : evalOne c p = some true := by
  unfold evalOne
  rw [if_pos ⟨⟨ρ, h⟩, hp⟩]

/-- spec_reg.py:1014-1025. -/
def rdt : Reg := ⟨[(0x1018, 0x40, 63), (0xd018, 0x40, 127)], 32, .rw, [⟨"RDT", 0, 15, some 0, .rw⟩]⟩
/-- spec_reg.py:1027-1044. -/
def rxdctl : Reg := ⟨[(0x1028, 0x40, 63), (0xd028, 0x40, 127)], 32, .rw, [⟨"ENABLE", 25, 25, some 0, .rw⟩, ⟨"VME", 30, 30, some 0, .rw⟩]⟩
/-- spec_act.py:158-167. -/
def bump : Action := ⟨"Bump Receive Tail Pointer", some (.reg "RXDCTL" "ENABLE"), .write "RDT" "RDT" (fun _ => true), []⟩
/-- RXDCTL 2 is unknown, but its bit 25 is set. -/
def ctx : Ctx := ⟨[("RDT", rdt), ("RXDCTL", rxdctl)], [], fun _ i => i, fun _ i => i, fun ρ => (ρ 7).testBit 25 = true⟩
def device : Device := ⟨fun n i => if n = "RXDCTL" ∧ i = 2 then some (.sym 32 fun ρ => ρ 7) else none, fun _ _ => none, true, none, 0, []⟩
/-- An unknown number. -/
def tail : Val := .sym 32 fun ρ => ρ 8

theorem enabled : precondHolds ctx 2 { device with regs := update device.regs "RDT" 2 rdt (.bvv 32 0) } bump.precond =
    some (true, { device with regs := update device.regs "RDT" 2 rdt (.bvv 32 0) }) := by
  have he : evalCond ctx 2 { device with regs := update device.regs "RDT" 2 rdt (.bvv 32 0) } (.reg "RXDCTL" "ENABLE") =
      some (.sym 1 fun ρ => ρ 7 % 2 ^ 32 / 2 ^ 25, { device with regs := update device.regs "RDT" 2 rdt (.bvv 32 0) }) := rfl
  change precondHolds ctx 2 _ (some (.reg "RXDCTL" "ENABLE")) = _
  rw [precondHolds, he]
  simp only [Option.some.injEq, Prod.mk.injEq, and_true, definitely_iff]
  intro ρ hρ
  change ρ 7 % 2 ^ 32 / 2 ^ 25 % 2 ^ 1 = 1
  have h : (ρ 7).testBit 25 = true := hρ
  have h2 : (ρ 7 % 2 ^ 32).testBit 25 = true := by rw [Nat.testBit_mod_two_pow, h]; rfl
  rw [Nat.testBit_eq_decide_div_mod_eq, decide_eq_true_eq] at h2
  simpa using h2

theorem accepted : ∃ d', write ctx (fun _ _ => false) [bump] device "RDT" 2 tail = some d' := by
  have hf : fetch ctx.fresh device.useInit device.regs "RDT" 2 rdt = some (.bvv 32 0, update device.regs "RDT" 2 rdt (.bvv 32 0)) := rfl
  have hl : findFields (fun _ _ => false) (.bvv 32 0) tail rdt.fields =
      some [(⟨"RDT", 0, 15, some 0, .rw⟩, .bvv 16 (0 % 2 ^ 32 / 2 ^ 0), .sym 16 fun ρ => ρ 8 % 2 ^ 32 / 2 ^ 0)] := rfl
  have hm : matchesField ctx "RDT" ⟨"RDT", 0, 15, some 0, .rw⟩ (.sym 16 fun ρ => ρ 8 % 2 ^ 32 / 2 ^ 0) bump.act = some true :=
    evalOne_of (c := ctx) (fun _ => 2 ^ 25) (by change Nat.testBit (2 ^ 25) 25 = true; decide) fun _ _ => rfl
  simp only [write, show ctx.regs.get "RDT" = some rdt from rfl, hf, hl]
  have hc : checkAccess rdt [((⟨"RDT", 0, 15, some 0, .rw⟩ : Field), Val.bvv 16 (0 % 2 ^ 32 / 2 ^ 0), Val.sym 16 fun ρ => ρ 8 % 2 ^ 32 / 2 ^ 0)] =
    some [(⟨"RDT", 0, 15, some 0, .rw⟩, .bvv 16 (0 % 2 ^ 32 / 2 ^ 0), .sym 16 fun ρ => ρ 8 % 2 ^ 32 / 2 ^ 0)] := rfl
  simp only [hc, verifyWrite, verifyFields, verifyField, if_pos (show bump.act.register = "RDT" from rfl), hm, enabled]
  exact ⟨_, rfl⟩

end RegWriteExample

open RegWriteExample in
/-- The hypotheses of the two theorems hold for an unknown tail, written to RDT 2 while RXDCTL 2 is known to be enabled. -/
example : Justified ctx [bump] device "RDT" 2 ⟨"RDT", 0, 15, some 0, .rw⟩ tail := by
  obtain ⟨d', h⟩ := accepted
  have hs : ∀ a ∈ [bump], ∀ p, a.precond = some p → Single ctx p := by
    intro a ha p hp
    rw [List.mem_singleton] at ha; subst ha
    cases hp
    refine ⟨fun r f hr hf => ?_, fun r f hr => ?_⟩
    · cases (show ctx.regs.get "RXDCTL" = some rxdctl from rfl).symm.trans hr
      cases (show rxdctl.field "ENABLE" = some ⟨"ENABLE", 25, 25, some 0, .rw⟩ from rfl).symm.trans hf
      rfl
    · cases hr
  have hne : ∃ ρ, ctx.constraints ρ ∧ content ⟨"RDT", 0, 15, some 0, .rw⟩ (.bvv 32 0) ρ ≠ content ⟨"RDT", 0, 15, some 0, .rw⟩ tail ρ :=
    ⟨fun i => if i = 7 then 2 ^ 25 else 1, by change Nat.testBit (2 ^ 25) 25 = true; decide, by decide⟩
  have := C52_access_partial ctx (fun _ _ => false) [bump] device d' "RDT" 2 tail rdt (.bvv 32 0) _ (by simp) (by simp [rdt]) rfl rfl h _ (by simp [rdt]) hne
  exact C52_justified ctx (fun _ _ => false) [bump] device d' "RDT" 2 tail rdt (.bvv 32 0) _ (by simp) hs rfl rfl h _ (by simp [rdt]) hne (by decide)

namespace RegWriteWrong

/-- A register with a bit on which writes are ignored, followed by a read-only bit. -/
def ir : Reg := ⟨[(0, 0, 0)], 32, .rw, [⟨"I", 0, 0, some 0, .iw⟩, ⟨"R", 1, 1, some 0, .ro⟩]⟩
def setR : Action := ⟨"Set R", none, .set "IR" "R", []⟩
/-- spec_act.py:201-205. -/
def program : Action := ⟨"Program TDBAL", none, .write "TDBAL" "TDBAL" (fun _ => true), []⟩
def ctx : Ctx := ⟨[("IR", ir), ("TDBAL", RegFieldExample.tdbal)], [], fun _ i => i, fun _ i => i, fun _ => True⟩
def device : Device := ⟨fun _ _ => none, fun _ _ => none, true, none, 0, []⟩

end RegWriteWrong

open RegWriteWrong in
/-- C52 is false of the code if a read-only field comes after one on which writes are ignored and both change: the read-only
field is not looked at, and an action that sets it suffices. No register of spec_reg.py is like that. -/
theorem C52_read_only_changed : ∃ (d' : Device) (old : Val) (st : Store) (f : Field),
    fetch ctx.fresh device.useInit device.regs "IR" 0 ir = some (old, st) ∧ write ctx (fun _ _ => false) [setR] device "IR" 0 (.bvv 32 3) = some d' ∧
    f ∈ ir.fields ∧ f.access = .ro ∧ ∀ ρ, content f old ρ ≠ content f (.bvv 32 3) ρ := by
  have hf : fetch ctx.fresh device.useInit device.regs "IR" 0 ir = some (.bvv 32 0, update device.regs "IR" 0 ir (.bvv 32 0)) := rfl
  have hl : ∃ l, findFields (fun _ _ => false) (.bvv 32 0) (.bvv 32 3) ir.fields = some l ∧ checkAccess ir l =
      some [(⟨"I", 0, 0, some 0, .iw⟩, .bvv 1 0, .bvv 1 0), (⟨"R", 1, 1, some 0, .ro⟩, .bvv 1 0, .bvv 1 1)] := ⟨_, rfl, rfl⟩
  obtain ⟨l, hl, hc⟩ := hl
  have hm1 : matchesField ctx "IR" ⟨"I", 0, 0, some 0, .iw⟩ (.bvv 1 0) setR.act = some false := rfl
  have hm2 : matchesField ctx "IR" ⟨"R", 1, 1, some 0, .ro⟩ (.bvv 1 1) setR.act = some true := by
    simp only [matchesField, setR, Option.some.injEq, Bool.and_eq_true, definitely_iff]
    exact ⟨by decide, fun _ _ => rfl⟩
  have hw : ∃ d', write ctx (fun _ _ => false) [setR] device "IR" 0 (.bvv 32 3) = some d' := by
    simp only [write, show ctx.regs.get "IR" = some ir from rfl, hf, hl, hc, verifyWrite, verifyFields, verifyField,
      if_pos (show setR.act.register = "IR" from rfl), hm1, hm2, show setR.precond = none from rfl, precondHolds]
    exact ⟨_, rfl⟩
  obtain ⟨d', hw⟩ := hw
  exact ⟨d', .bvv 32 0, _, ⟨"R", 1, 1, some 0, .ro⟩, hf, hw, by simp [ir], rfl, fun ρ => by
    change 0 % 2 ^ 32 / 2 ^ 1 % 2 ^ 1 ≠ 3 % 2 ^ 32 / 2 ^ 1 % 2 ^ 1
    decide⟩

open RegWriteWrong RegFieldExample in
/-- A write to TDBAL (spec_reg.py:774-792) is accepted and stores what it writes to the bits on which writes are ignored, so that
later reads give it, although the device gives zero. -/
theorem C52_ignored_bits_stored : ∃ (d' : Device) (v : Val) (f : Field), write RegWriteWrong.ctx (fun _ _ => false) [program] RegWriteWrong.device "TDBAL" 1 (.bvv 32 0x1001) = some d' ∧
    d'.regs "TDBAL" 1 = some v ∧ f ∈ tdbal.fields ∧ f.access = .iw ∧ f.init = some 0 ∧ ∀ ρ, content f v ρ = 1 := by
  have hf : ∃ old, initSymb 1 tdbal = some old ∧ ∃ l, findFields (fun _ _ => false) old (.bvv 32 0x1001) tdbal.fields = some l ∧ ∃ p q, checkAccess tdbal l =
      some [(⟨"0", 0, 6, some 0, .iw⟩, p, p), (⟨"TDBAL", 7, 31, none, .rw⟩, q, .bvv 25 0x20)] := ⟨_, rfl, _, rfl, _, _, rfl⟩
  obtain ⟨old, ho, l, hl, p, q, hc⟩ := hf
  have hf : fetch RegWriteWrong.ctx.fresh RegWriteWrong.device.useInit RegWriteWrong.device.regs "TDBAL" 1 tdbal =
      some (old, update RegWriteWrong.device.regs "TDBAL" 1 tdbal old) := fetch_first rfl ho
  have hm1 : matchesField RegWriteWrong.ctx "TDBAL" ⟨"0", 0, 6, some 0, .iw⟩ p program.act = some false := rfl
  have hm2 : matchesField RegWriteWrong.ctx "TDBAL" ⟨"TDBAL", 7, 31, none, .rw⟩ (.bvv 25 0x20) program.act = some true :=
    RegWriteExample.evalOne_of (c := RegWriteWrong.ctx) (fun _ => 0) trivial fun _ _ => rfl
  have hw : ∃ d', write RegWriteWrong.ctx (fun _ _ => false) [program] RegWriteWrong.device "TDBAL" 1 (.bvv 32 0x1001) = some d' ∧
      d'.regs "TDBAL" 1 = some (.bvv 32 0x1001) := by
    simp only [write, show RegWriteWrong.ctx.regs.get "TDBAL" = some tdbal from rfl, hf, hl, hc, verifyWrite, verifyFields, verifyField,
      if_pos (show program.act.register = "TDBAL" from rfl), hm1, hm2, show program.precond = none from rfl, precondHolds]
    exact ⟨_, rfl, rfl⟩
  obtain ⟨d', hw, hd⟩ := hw
  exact ⟨d', _, ⟨"0", 0, 6, some 0, .iw⟩, hw, hd, by simp [tdbal], rfl, rfl, fun ρ => by
    change 0x1001 % 2 ^ 32 / 2 ^ 0 % 2 ^ 7 = 1
    decide⟩

end Verif.Props
