/-
C51: register fields. Bits are the specification: `Nat.testBit` of the value under an assignment of the symbols.
-/
import Verif.Tool.Registers
import Mathlib.Tactic.Common

set_option autoImplicit false

namespace Verif.Props
open Verif.Tool.Registers

namespace RegField

theorem den_lt (x : Val) (ρ : Env) : x.den ρ < 2 ^ x.width := by
  cases x <;> exact Nat.mod_lt _ (Nat.two_pow_pos _)

theorem bit_high {x : Val} {ρ : Env} {i : Nat} (h : x.width ≤ i) : (x.den ρ).testBit i = false :=
  Nat.testBit_lt_two_pow (Nat.lt_of_lt_of_le (den_lt x ρ) (Nat.pow_le_pow_right (by decide) h))

theorem bvv_width (w v : Nat) : (Val.bvv w v).width = w := rfl

theorem bvv_bit (w v : Nat) (ρ : Env) (i : Nat) : ((Val.bvv w v).den ρ).testBit i = (decide (i < w) && v.testBit i) := by
  simp [Val.den, Nat.testBit_mod_two_pow]

theorem extract_spec {x : Val} {hi lo : Nat} (h : lo ≤ hi) (hw : hi < x.width) :
    ∃ y, x.extract hi lo = some y ∧ y.width = hi - lo + 1 ∧
      ∀ ρ i, (y.den ρ).testBit i = (decide (i < hi - lo + 1) && (x.den ρ).testBit (i + lo)) := by
  unfold Val.extract
  rw [if_pos ⟨h, hw⟩]
  cases x <;> refine ⟨_, rfl, rfl, fun ρ i => ?_⟩ <;>
    simp [Val.den, Nat.testBit_mod_two_pow, Nat.testBit_div_two_pow]

theorem concat_width (a b : Val) : (a.concat b).width = a.width + b.width := by
  cases a <;> cases b <;> rfl

theorem concat_bit (a b : Val) (ρ : Env) (i : Nat) :
    ((a.concat b).den ρ).testBit i = if i < b.width then (b.den ρ).testBit i else (a.den ρ).testBit (i - b.width) := by
  have key : (a.concat b).den ρ = 2 ^ b.width * a.den ρ + b.den ρ := by
    have hlt : a.den ρ * 2 ^ b.width + b.den ρ < 2 ^ (a.width + b.width) := by
      have h1 := den_lt a ρ
      have h2 := den_lt b ρ
      calc a.den ρ * 2 ^ b.width + b.den ρ < a.den ρ * 2 ^ b.width + 2 ^ b.width := by omega
        _ = (a.den ρ + 1) * 2 ^ b.width := by rw [Nat.add_mul, Nat.one_mul]
        _ ≤ 2 ^ a.width * 2 ^ b.width := Nat.mul_le_mul_right _ h1
        _ = _ := (Nat.pow_add ..).symm
    rw [Nat.mul_comm]
    cases a <;> cases b <;> exact Nat.mod_eq_of_lt hlt
  rw [key, Nat.testBit_two_pow_mul_add _ (den_lt b ρ)]

/-- Bits `start` to `stop` replaced. -/
def replaced (start stop value : Nat) (old : Nat) (i : Nat) : Bool :=
  if start ≤ i ∧ i ≤ stop then value.testBit (i - start) else old.testBit i

theorem constrain_spec {x : Val} {start stop value : Nat} (h : start ≤ stop) (hw : stop < x.width) (hv : value < 2 ^ (stop - start + 1)) :
    ∃ y, constrainField x start stop value = some y ∧ y.width = x.width ∧
      ∀ ρ i, (y.den ρ).testBit i = replaced start stop value (x.den ρ) i := by
  have e : 1 + stop - start = stop - start + 1 := by omega
  have hvb : ∀ i, stop - start + 1 ≤ i → value.testBit i = false := fun i hi =>
    Nat.testBit_lt_two_pow (Nat.lt_of_lt_of_le hv (Nat.pow_le_pow_right (by decide) hi))
  unfold constrainField
  rw [if_neg (by omega), e, if_neg (by rw [Nat.mod_eq_of_lt hv]; simp)]
  by_cases h0 : start = 0
  · subst h0
    simp only [if_pos]
    by_cases hs : stop = x.width - 1
    · rw [if_pos hs]
      refine ⟨_, rfl, by rw [bvv_width]; omega, fun ρ i => ?_⟩
      rw [bvv_bit]
      unfold replaced
      by_cases hi : i ≤ stop
      · rw [if_pos ⟨Nat.zero_le _, hi⟩]; simp; omega
      · rw [if_neg (by omega), bit_high (by omega)]; simp; omega
    · rw [if_neg hs]
      obtain ⟨y, hy, hyw, hyb⟩ := extract_spec (x := x) (hi := x.width - 1) (lo := stop + 1) (by omega) (by omega)
      rw [hy]
      refine ⟨_, rfl, by rw [concat_width, hyw]; rw [bvv_width]; omega, fun ρ i => ?_⟩
      rw [concat_bit, bvv_bit, hyb]
      rw [bvv_width, replaced]
      by_cases hi : i ≤ stop
      · rw [if_pos (by omega), if_pos (by omega)]; simp; omega
      · rw [if_neg (by omega), if_neg (by omega)]
        rw [show i - (stop - 0 + 1) + (stop + 1) = i by omega]
        by_cases hiw : i < x.width
        · simp; omega
        · rw [bit_high (by omega)]; simp
  · rw [if_neg h0]
    obtain ⟨l, hl, hlw, hlb⟩ := extract_spec (x := x) (hi := start - 1) (lo := 0) (by omega) (by omega)
    by_cases hs : stop = x.width - 1
    · rw [if_pos hs, hl]
      refine ⟨_, rfl, by rw [concat_width, hlw]; rw [bvv_width]; omega, fun ρ i => ?_⟩
      rw [concat_bit, bvv_bit, hlb, hlw]
      simp only [replaced]
      by_cases hi : i < start
      · rw [if_pos (by omega), if_neg (by omega)]; simp; omega
      · rw [if_neg (by omega), show start - 1 - 0 + 1 = start by omega]
        by_cases hi2 : i ≤ stop
        · rw [if_pos (by omega)]; simp; omega
        · rw [if_neg (by omega), bit_high (by omega)]; simp; omega
    · rw [if_neg hs]
      obtain ⟨y, hy, hyw, hyb⟩ := extract_spec (x := x) (hi := x.width - 1) (lo := stop + 1) (by omega) (by omega)
      rw [hl, hy]
      refine ⟨_, rfl, by rw [concat_width, concat_width, hlw, hyw]; rw [bvv_width]; omega, fun ρ i => ?_⟩
      rw [concat_bit, concat_bit, bvv_bit, hlb, hyb, hlw]
      rw [bvv_width, replaced]
      by_cases hi : i < start
      · rw [if_pos (by omega), if_neg (by omega)]; simp; omega
      · rw [if_neg (by omega), show start - 1 - 0 + 1 = start by omega]
        by_cases hi2 : i ≤ stop
        · rw [if_pos (by omega), if_pos (by omega)]; simp; omega
        · rw [if_neg (by omega), if_neg (by omega), show i - start - (stop - start + 1) + (stop + 1) = i by omega]
          by_cases hiw : i < x.width
          · simp; omega
          · rw [bit_high (by omega)]; simp

theorem withField_spec {old : Val} {f : Field} {length new : Nat} (h : f.start ≤ f.stop) (hl : f.stop < length)
    (hw : old.width = length) (hv : new < 2 ^ (f.stop - f.start + 1)) :
    ∃ v, withField old f length new = some v ∧ v.width = length ∧
      ∀ ρ i, (v.den ρ).testBit i = replaced f.start f.stop new (old.den ρ) i := by
  have hvb : ∀ i, f.stop - f.start + 1 ≤ i → new.testBit i = false := fun i hi =>
    Nat.testBit_lt_two_pow (Nat.lt_of_lt_of_le hv (Nat.pow_le_pow_right (by decide) hi))
  subst hw
  cases old with
  | bvv w a =>
    rw [bvv_width] at *
    have hx : ∀ i, w ≤ i → ((Val.bvv w a).den fun _ => 0).testBit i = false := fun i hi => bit_high (x := .bvv w a) hi
    -- the bits before and after the field
    obtain ⟨before, hb, hbb⟩ : ∃ b, (if f.start > 0 then ((Val.bvv w a).extract (f.start - 1) 0).map (·.den fun _ => 0) else some 0) = some b ∧
        ∀ i, b.testBit i = (decide (i < f.start) && ((Val.bvv w a).den fun _ => 0).testBit i) := by
      by_cases h0 : f.start > 0
      · obtain ⟨y, hy, -, hyb⟩ := extract_spec (x := .bvv w a) (hi := f.start - 1) (lo := 0) (by omega) (by rw [bvv_width]; omega)
        rw [if_pos h0, hy]
        refine ⟨_, rfl, fun i => ?_⟩
        rw [hyb, show f.start - 1 - 0 + 1 = f.start by omega]; rfl
      · rw [if_neg h0]
        exact ⟨0, rfl, fun i => by simp; intro; omega⟩
    obtain ⟨after, ha, hab⟩ : ∃ b, (if f.stop < w - 1 then ((Val.bvv w a).extract (w - 1) (f.stop + 1)).map (·.den fun _ => 0) else some 0) = some b ∧
        ∀ i, b.testBit i = ((Val.bvv w a).den fun _ => 0).testBit (i + (f.stop + 1)) := by
      by_cases h0 : f.stop < w - 1
      · obtain ⟨y, hy, -, hyb⟩ := extract_spec (x := .bvv w a) (hi := w - 1) (lo := f.stop + 1) (by omega) (by rw [bvv_width]; omega)
        rw [if_pos h0, hy]
        refine ⟨_, rfl, fun i => ?_⟩
        rw [hyb]
        by_cases hi : i < w - 1 - (f.stop + 1) + 1
        · simp [hi]
        · rw [hx _ (by omega)]; simp
      · rw [if_neg h0]
        exact ⟨0, rfl, fun i => by rw [hx _ (by omega)]; simp⟩
    simp only [withField, hb, ha]
    refine ⟨_, rfl, rfl, fun ρ i => ?_⟩
    rw [bvv_bit]
    simp only [Nat.testBit_or, Nat.testBit_shiftLeft, Nat.zero_testBit, Bool.false_or, hbb, hab, replaced]
    have hρ : (Val.bvv w a).den ρ = (Val.bvv w a).den fun _ => 0 := rfl
    rw [hρ]
    by_cases hi : i < f.start
    · rw [if_neg (by omega)]
      have h1 : ¬ f.start ≤ i := by omega
      have h2 : ¬ f.stop + 1 ≤ i := by omega
      simp [hi, h1, h2]; omega
    · by_cases hi2 : i ≤ f.stop
      · rw [if_pos (by omega)]
        have h1 : f.start ≤ i := by omega
        have h2 : ¬ f.stop + 1 ≤ i := by omega
        simp [hi, h1, h2]; omega
      · rw [if_neg (by omega), hvb _ (by omega), show i - (f.stop + 1) + (f.stop + 1) = i by omega]
        have h2 : f.stop + 1 ≤ i := by omega
        by_cases hiw : i < w
        · simp [hi, h2, hiw]
        · rw [hx _ (by omega)]; simp [hiw]
  | sym w a =>
    generalize hx : Val.sym w a = x at *
    have hxw : x.width = w := by rw [← hx]; rfl
    obtain ⟨y, hy, hyw, hyb⟩ : ∃ y, (if f.start = 0 then some (Val.bvv (f.stop - f.start + 1) new)
        else (x.extract (f.start - 1) 0).map fun l => (Val.bvv (f.stop - f.start + 1) new).concat l) = some y ∧ y.width = f.stop + 1 ∧
        ∀ ρ i, i ≤ f.stop → (y.den ρ).testBit i = replaced f.start f.stop new (x.den ρ) i := by
      by_cases h0 : f.start = 0
      · rw [if_pos h0]
        refine ⟨_, rfl, by rw [bvv_width]; omega, fun ρ i hi => ?_⟩
        rw [bvv_bit, replaced, if_pos (by omega)]
        simp [h0]; omega
      · rw [if_neg h0]
        obtain ⟨l, hl', hlw, hlb⟩ := extract_spec (x := x) (hi := f.start - 1) (lo := 0) (by omega) (by omega)
        rw [hl']
        refine ⟨_, rfl, by rw [concat_width, hlw]; rw [bvv_width]; omega, fun ρ i hi => ?_⟩
        rw [concat_bit, bvv_bit, hlb, hlw, replaced]
        by_cases hi : i < f.start
        · rw [if_pos (by omega), if_neg (by omega)]; simp; omega
        · rw [if_neg (by omega), if_pos (by omega), show f.start - 1 - 0 + 1 = f.start by omega]; simp; omega
    have hwf : withField x f x.width new = match (if f.start = 0 then some (Val.bvv (f.stop - f.start + 1) new)
        else (x.extract (f.start - 1) 0).map fun l => (Val.bvv (f.stop - f.start + 1) new).concat l) with
      | none => none
      | some z => if f.stop < x.width - 1 then (x.extract (x.width - 1) (f.stop + 1)).map fun h => h.concat z else some z := by
      subst hx; rfl
    rw [hwf, hy]
    by_cases h1 : f.stop < x.width - 1
    · obtain ⟨u, hu, huw, hub⟩ := extract_spec (x := x) (hi := x.width - 1) (lo := f.stop + 1) (by omega) (by omega)
      simp only [if_pos h1, hu]
      refine ⟨_, rfl, by rw [concat_width, huw, hyw]; omega, fun ρ i => ?_⟩
      rw [concat_bit, hyw]
      by_cases hi : i ≤ f.stop
      · rw [if_pos (by omega), hyb _ _ hi]
      · rw [if_neg (by omega), hub, replaced, if_neg (by omega), show i - (f.stop + 1) + (f.stop + 1) = i by omega]
        by_cases hiw : i < x.width
        · simp; omega
        · rw [bit_high (by omega)]; simp
    · simp only [if_neg h1]
      refine ⟨_, rfl, by omega, fun ρ i => ?_⟩
      by_cases hi : i ≤ f.stop
      · exact hyb _ _ hi
      · rw [replaced, if_neg (by omega), bit_high (by omega), bit_high (by omega)]

theorem fetch_frame {fresh : String → Nat → Nat} {u : Bool} {st st' : Store} {name : String} {index : Nat} {r : Reg} {v : Val}
    (h : fetch fresh u st name index r = some (v, st')) (n : String) (i : Nat) (hn : ¬ (n = name ∧ i = r.slot index)) : st' n i = st n i := by
  unfold fetch at h
  cases hs : st name (r.slot index) with
  | some w =>
    rw [hs] at h; simp only [Option.some.injEq, Prod.mk.injEq] at h; rw [← h.2]
  | none =>
    rw [hs] at h
    simp only [Option.map_eq_some_iff, Prod.mk.injEq] at h
    obtain ⟨w, -, -, rfl⟩ := h
    unfold update; rw [if_neg hn]

end RegField

open RegField

/-- C51, updates: changing a field of a device register to a value that fits stores it in exactly the bits of the field. The
other bits, the other registers, and the other instances of the register are left as they were. The old value is the stored
one, or the initial one if the register was not used before. -/
theorem C51_change (c : Ctx) (d : Device) (reg field : String) (index new : Nat) (r : Reg) (f : Field) (old : Val) (st : Store)
    (hr : c.regs.get reg = some r) (hf : r.field field = some f) (hold : fetch c.fresh d.useInit d.regs reg index r = some (old, st))
    (hw : old.width = r.length) (hwf : f.start ≤ f.stop ∧ f.stop < r.length) (hnew : new < 2 ^ (f.stop - f.start + 1)) :
    ∃ d' v, changeField c d reg field index new = some d' ∧ d'.regs reg (r.slot index) = some v ∧ v.width = r.length ∧
      (∀ ρ i, f.start ≤ i → i ≤ f.stop → (v.den ρ).testBit i = new.testBit (i - f.start)) ∧
      (∀ ρ i, i < f.start ∨ f.stop < i → (v.den ρ).testBit i = (old.den ρ).testBit i) ∧
      (∀ n i, ¬ (n = reg ∧ i = r.slot index) → d'.regs n i = d.regs n i) ∧ d' = { d with regs := d'.regs } := by
  obtain ⟨v, hv, hvw, hvb⟩ := withField_spec hwf.1 hwf.2 hw hnew
  refine ⟨{ d with regs := update st reg index r v }, v, ?_, ?_, hvw, fun ρ i h1 h2 => ?_, fun ρ i h => ?_, fun n i hn => ?_, rfl⟩
  · simp only [changeField, hr, hf, hold, hv, Option.map_some]
  · simp [update]
  · rw [hvb, replaced, if_pos ⟨h1, h2⟩]
  · rw [hvb, replaced, if_neg (by omega)]
  · simp only [update, if_neg hn]; exact fetch_frame hold n i hn

/-- C51, updates of registers of the PCI configuration: as for device registers. -/
theorem C51_change_pci (c : Ctx) (d : Device) (reg field : String) (index new : Nat) (r : Reg) (f : Field) (old : Val) (st : Store)
    (hn : c.regs.get reg = none) (hr : c.pci.get reg = some r) (hf : r.field field = some f)
    (hold : fetch c.freshPci d.useInit d.pci reg index r = some (old, st))
    (hw : old.width = r.length) (hwf : f.start ≤ f.stop ∧ f.stop < r.length) (hnew : new < 2 ^ (f.stop - f.start + 1)) :
    ∃ d' v, changeField c d reg field index new = some d' ∧ d'.pci reg (r.slot index) = some v ∧ v.width = r.length ∧
      (∀ ρ i, f.start ≤ i → i ≤ f.stop → (v.den ρ).testBit i = new.testBit (i - f.start)) ∧
      (∀ ρ i, i < f.start ∨ f.stop < i → (v.den ρ).testBit i = (old.den ρ).testBit i) ∧
      (∀ n i, ¬ (n = reg ∧ i = r.slot index) → d'.pci n i = d.pci n i) ∧ d' = { d with pci := d'.pci } := by
  obtain ⟨v, hv, hvw, hvb⟩ := withField_spec hwf.1 hwf.2 hw hnew
  refine ⟨{ d with pci := update st reg index r v }, v, ?_, ?_, hvw, fun ρ i h1 h2 => ?_, fun ρ i h => ?_, fun n i hn => ?_, rfl⟩
  · simp only [changeField, hn, hr, hf, hold, hv, Option.map_some]
  · simp [update]
  · rw [hvb, replaced, if_pos ⟨h1, h2⟩]
  · rw [hvb, replaced, if_neg (by omega)]
  · simp only [update, if_neg hn]; exact fetch_frame hold n i hn

/-- A layout of fields: they are inside the register, their initial values fit, and they do not overlap. -/
structure Layout (r : Reg) : Prop where
  inside : ∀ f ∈ r.fields, f.start ≤ f.stop ∧ f.stop < r.length
  fits : ∀ f ∈ r.fields, ∀ v, f.init = some v → v < 2 ^ (f.stop - f.start + 1)
  disjoint : r.fields.Pairwise fun f g => f.stop < g.start ∨ g.stop < f.start

/-- What an initial value should be: fields have their initial value, those without one can have any, other bits are zero. -/
structure InitialValue (r : Reg) (s : Nat) (x : Val) : Prop where
  width : x.width = r.length
  field : ∀ f ∈ r.fields, ∀ v, f.init = some v → ∀ ρ i, f.start ≤ i → i ≤ f.stop → (x.den ρ).testBit i = v.testBit (i - f.start)
  floating : ∀ f ∈ r.fields, f.init = none → ∀ ρ i, f.start ≤ i → i ≤ f.stop → (x.den ρ).testBit i = (ρ s).testBit i
  reserved : ∀ ρ i, (∀ f ∈ r.fields, i < f.start ∨ f.stop < i) → (x.den ρ).testBit i = false

namespace RegField

theorem initValue_bit : ∀ (fs : List Field) (v : Nat), (∀ f ∈ fs, f.init ≠ none) →
    ∃ w, initValue v fs = some w ∧
      ∀ i, w.testBit i = true ↔ v.testBit i = true ∨ ∃ f ∈ fs, ∃ k, f.init = some k ∧ f.start ≤ i ∧ k.testBit (i - f.start) = true
  | [], v, _ => ⟨v, rfl, by simp⟩
  | f :: fs, v, h => by
    obtain ⟨k, hk⟩ := Option.ne_none_iff_exists'.mp (h f (by simp))
    obtain ⟨w, hw, hb⟩ := initValue_bit fs (v ||| k <<< f.start) fun g hg => h g (by simp [hg])
    refine ⟨w, by simp only [initValue, hk]; exact hw, fun i => ?_⟩
    rw [hb]
    simp only [Nat.testBit_or, Nat.testBit_shiftLeft, Bool.or_eq_true, Bool.and_eq_true, decide_eq_true_eq, List.mem_cons,
      exists_eq_or_imp, hk, Option.some.injEq, exists_eq_left', ge_iff_le, or_assoc]

theorem disjoint_of_mem {fs : List Field} (h : fs.Pairwise fun f g => f.stop < g.start ∨ g.stop < f.start) {f g : Field}
    (hf : f ∈ fs) (hg : g ∈ fs) : f = g ∨ f.stop < g.start ∨ g.stop < f.start := by
  induction h with
  | nil => simp at hf
  | cons hh _ ih =>
    rcases List.mem_cons.mp hf with rfl | hf' <;> rcases List.mem_cons.mp hg with rfl | hg'
    · exact .inl rfl
    · exact .inr (hh _ hg')
    · exact .inr (hh _ hf').symm
    · exact ih hf' hg'

theorem initCon_none : ∀ (fs : List Field) (v : Nat), (∃ f ∈ fs, f.init = none) → initValue v fs = none
  | [], _, h => by simp at h
  | f :: fs, v, h => by
    cases hi : f.init with
    | none => simp only [initValue, hi]
    | some k =>
      simp only [initValue, hi]
      refine initCon_none fs _ ?_
      obtain ⟨g, hg, hn⟩ := h
      rcases List.mem_cons.mp hg with rfl | hg
      · rw [hi] at hn; cases hn
      · exact ⟨g, hg, hn⟩

theorem initFields_spec : ∀ (fs : List Field) (x : Val) (last : Nat), fs.Pairwise (fun f g => f.stop < g.start) →
    (∀ f ∈ fs, last ≤ f.start ∧ f.start ≤ f.stop ∧ f.stop < x.width) →
    (∀ f ∈ fs, ∀ v, f.init = some v → v < 2 ^ (f.stop - f.start + 1)) →
    (∀ f ∈ fs, f.init = none → ∀ i, last ≤ i → i < f.start → ∃ g ∈ fs, g.start ≤ i ∧ i ≤ g.stop) → last ≤ x.width →
    ∃ y last', initFields x last fs = some (y, last') ∧ y.width = x.width ∧ last ≤ last' ∧ last' ≤ x.width ∧
      (∀ f ∈ fs, f.stop < last') ∧
      (∀ ρ i, i < last ∨ last' ≤ i → (y.den ρ).testBit i = (x.den ρ).testBit i) ∧
      (∀ f ∈ fs, ∀ v, f.init = some v → ∀ ρ i, f.start ≤ i → i ≤ f.stop → (y.den ρ).testBit i = v.testBit (i - f.start)) ∧
      (∀ f ∈ fs, f.init = none → ∀ ρ i, f.start ≤ i → i ≤ f.stop → (y.den ρ).testBit i = (x.den ρ).testBit i) ∧
      (∀ ρ i, last ≤ i → i < last' → (∀ f ∈ fs, i < f.start ∨ f.stop < i) → (y.den ρ).testBit i = false)
  | [], x, last, _, _, _, _, hl => ⟨x, last, rfl, rfl, Nat.le_refl _, hl, by simp, by simp, by simp, by simp, fun ρ i h1 h2 => by omega⟩
  | f :: fs, x, last, ho, hin, hfit, hpack, hl => by
    obtain ⟨hof, ho⟩ := List.pairwise_cons.mp ho
    obtain ⟨h1, h2, h3⟩ := hin f (by simp)
    cases hi : f.init with
    | none =>
      have hs : f.start = last := by
        by_contra hne
        obtain ⟨g, hg, hg1, hg2⟩ := hpack f (by simp) hi last (Nat.le_refl _) (by omega)
        rcases List.mem_cons.mp hg with rfl | hg
        · omega
        · have := hof g hg; omega
      obtain ⟨y, last', hy, hyw, ha, hb, hc, hd, he, hf', hg'⟩ := initFields_spec fs x (f.stop + 1) ho
        (fun g hg => ⟨hof g hg, (hin g (by simp [hg])).2⟩) (fun g hg => hfit g (by simp [hg]))
        (fun g hg hgn i hia hib => by
          obtain ⟨k, hk, hk1, hk2⟩ := hpack g (by simp [hg]) hgn i (by omega) hib
          rcases List.mem_cons.mp hk with rfl | hk
          · omega
          · exact ⟨k, hk, hk1, hk2⟩) (by omega)
      refine ⟨y, last', by simp only [initFields, hi]; exact hy, hyw, by omega, hb, ?_, ?_, ?_, ?_, ?_⟩
      · intro g hg
        rcases List.mem_cons.mp hg with rfl | hg
        · omega
        · exact hc g hg
      · intro ρ i h; exact hd ρ i (by omega)
      · intro g hg v hv ρ i hi1 hi2
        rcases List.mem_cons.mp hg with rfl | hg
        · rw [hi] at hv; cases hv
        · exact he g hg v hv ρ i hi1 hi2
      · intro g hg hgn ρ i hi1 hi2
        rcases List.mem_cons.mp hg with rfl | hg
        · exact hd ρ i (by omega)
        · exact hf' g hg hgn ρ i hi1 hi2
      · intro ρ i hi1 hi2 hno
        have := hno f (by simp)
        exact hg' ρ i (by omega) hi2 fun g hg => hno g (by simp [hg])
    | some v =>
      obtain ⟨a, haeq, haw, hab⟩ : ∃ a, (if last ≠ f.start then constrainField x last (f.start - 1) 0 else some x) = some a ∧ a.width = x.width ∧
          ∀ ρ i, (a.den ρ).testBit i = if last ≤ i ∧ i < f.start then false else (x.den ρ).testBit i := by
        by_cases hne : last = f.start
        · rw [if_neg (by simp [hne])]
          exact ⟨x, rfl, rfl, fun ρ i => by rw [if_neg (by omega)]⟩
        · rw [if_pos hne]
          obtain ⟨a, ha, haw, hab⟩ := constrain_spec (x := x) (start := last) (stop := f.start - 1) (value := 0) (by omega) (by omega) (Nat.two_pow_pos _)
          refine ⟨a, ha, haw, fun ρ i => ?_⟩
          rw [hab, replaced]
          by_cases hh : last ≤ i ∧ i < f.start
          · rw [if_pos hh, if_pos (by omega)]; simp
          · rw [if_neg hh, if_neg (by omega)]
      obtain ⟨b, hbeq, hbw, hbb⟩ := constrain_spec (x := a) (start := f.start) (stop := f.stop) (value := v) h2 (by omega) (hfit f (by simp) v hi)
      obtain ⟨y, last', hy, hyw, ha, hb, hc, hd, he, hf', hg'⟩ := initFields_spec fs b (f.stop + 1) ho
        (fun g hg => ⟨hof g hg, by rw [hbw, haw]; exact (hin g (by simp [hg])).2⟩) (fun g hg => hfit g (by simp [hg]))
        (fun g hg hgn i hia hib => by
          obtain ⟨k, hk, hk1, hk2⟩ := hpack g (by simp [hg]) hgn i (by omega) hib
          rcases List.mem_cons.mp hk with rfl | hk
          · omega
          · exact ⟨k, hk, hk1, hk2⟩) (by omega)
      refine ⟨y, last', by simp only [initFields, hi, haeq, hbeq]; exact hy, by omega, by omega, by omega, ?_, ?_, ?_, ?_, ?_⟩
      · intro g hg
        rcases List.mem_cons.mp hg with rfl | hg
        · omega
        · exact hc g hg
      · intro ρ i h
        rw [hd ρ i (by omega), hbb, replaced, if_neg (by omega), hab, if_neg (by omega)]
      · intro g hg w hw ρ i hi1 hi2
        rcases List.mem_cons.mp hg with rfl | hg
        · rw [hi, Option.some.injEq] at hw; subst hw
          rw [hd ρ i (by omega), hbb, replaced, if_pos ⟨hi1, hi2⟩]
        · exact he g hg w hw ρ i hi1 hi2
      · intro g hg hgn ρ i hi1 hi2
        rcases List.mem_cons.mp hg with rfl | hg
        · rw [hi] at hgn; cases hgn
        · have := hof g hg
          rw [hf' g hg hgn ρ i hi1 hi2, hbb, replaced, if_neg (by omega), hab, if_neg (by omega)]
      · intro ρ i hi1 hi2 hno
        have := hno f (by simp)
        by_cases hlt : i < f.start
        · rw [hd ρ i (by omega), hbb, replaced, if_neg (by omega), hab, if_pos ⟨hi1, hlt⟩]
        · exact hg' ρ i (by omega) hi2 fun g hg => hno g (by simp [hg])

theorem fetch_first {fresh : String → Nat → Nat} {st : Store} {name : String} {index : Nat} {r : Reg} {x : Val}
    (h : st name (r.slot index) = none)
    (hx : (match initCon r with | some v => some v | none => initSymb (fresh name (r.slot index)) r) = some x) :
    fetch fresh true st name index r = some (x, update st name index r x) := by
  unfold fetch
  rw [h]
  simp only [if_pos]
  cases hc : initCon r <;> rw [hc] at hx <;> simp only at hx ⊢ <;> rw [hx] <;> rfl

end RegField

/-- C51, initial values, registers all of whose fields have one: the first use of a register after a reset gives each field
its initial value and zero elsewhere, whatever the order of the fields. -/
theorem C51_initial_known (fresh : String → Nat → Nat) (st : Store) (name : String) (index : Nat) (r : Reg) (hl : Layout r)
    (hk : ∀ f ∈ r.fields, f.init ≠ none) (hnew : st name (r.slot index) = none) :
    ∃ x, fetch fresh true st name index r = some (x, update st name index r x) ∧ InitialValue r (fresh name (r.slot index)) x := by
  obtain ⟨w, hw, hb⟩ := initValue_bit r.fields 0 hk
  have hhigh : ∀ f ∈ r.fields, ∀ k, f.init = some k → ∀ i, f.start ≤ i → k.testBit (i - f.start) = true → i ≤ f.stop := by
    intro f hf k hk' i hi ht
    by_contra hgt
    have := (hl.inside f hf).1
    have := Nat.testBit_lt_two_pow (i := i - f.start) (Nat.lt_of_lt_of_le (hl.fits f hf k hk') (Nat.pow_le_pow_right (by decide) (by omega)))
    rw [this] at ht; cases ht
  refine ⟨.bvv r.length w, fetch_first hnew (by simp only [initCon, hw, Option.map_some]), rfl, ?_, fun f hf hn => absurd hn (hk f hf), ?_⟩
  · intro f hf v hv ρ i hi1 hi2
    have := (hl.inside f hf).2
    rw [bvv_bit, decide_eq_true (by omega : i < r.length), Bool.true_and, Bool.eq_iff_iff, hb]
    constructor
    · rintro (h | ⟨g, hg, k, hgk, hgs, ht⟩)
      · simp at h
      · have hgi := hhigh g hg k hgk i hgs ht
        rcases disjoint_of_mem hl.disjoint hf hg with rfl | h
        · rw [hv, Option.some.injEq] at hgk; subst hgk; exact ht
        · omega
    · intro h; exact .inr ⟨f, hf, v, hv, hi1, h⟩
  · intro ρ i hno
    rw [bvv_bit, Bool.and_eq_false_iff]
    right
    rw [Bool.eq_false_iff, Ne, hb]
    rintro (h | ⟨g, hg, k, hgk, hgs, ht⟩)
    · simp at h
    · have := hhigh g hg k hgk i hgs ht
      have := hno g hg
      omega

/-- C51, initial values, registers with fields that have none. Missing: reserved bits right before a field without an initial
value; `C51_reserved_floats` shows that they are not zero. So here the bits before each such field belong to fields. The
fields are in order. -/
theorem C51_initial_partial (fresh : String → Nat → Nat) (st : Store) (name : String) (index : Nat) (r : Reg) (hl : Layout r)
    (ho : r.fields.Pairwise fun f g => f.stop < g.start)
    (hp : ∀ f ∈ r.fields, f.init = none → ∀ i, i < f.start → ∃ g ∈ r.fields, g.start ≤ i ∧ i ≤ g.stop)
    (hk : ∃ f ∈ r.fields, f.init = none) (hnew : st name (r.slot index) = none) :
    ∃ x, fetch fresh true st name index r = some (x, update st name index r x) ∧ InitialValue r (fresh name (r.slot index)) x := by
  set s := fresh name (r.slot index) with hs
  obtain ⟨y, last, hy, hyw, -, hb, hc, hd, he, hf, hg⟩ := initFields_spec r.fields (.sym r.length fun ρ => ρ s) 0 ho
    (fun f hf => ⟨Nat.zero_le _, hl.inside f hf⟩) hl.fits (fun f hf hn i _ hi => hp f hf hn i hi) (Nat.zero_le _)
  have hsym : ∀ ρ i, i < r.length → ((Val.sym r.length fun ρ => ρ s).den ρ).testBit i = (ρ s).testBit i := fun ρ i hi => by
    simp [Val.den, Nat.testBit_mod_two_pow, hi]
  change y.width = r.length at hyw
  change last ≤ r.length at hb
  have hcon : initCon r = none := by simp only [initCon, initCon_none r.fields 0 hk, Option.map_none]
  obtain ⟨x, hx, hxw, hxb⟩ : ∃ x, initSymb s r = some x ∧ x.width = r.length ∧
      ∀ ρ i, (x.den ρ).testBit i = if last ≤ i then false else (y.den ρ).testBit i := by
    unfold initSymb
    rw [hy]
    by_cases hne : last = r.length
    · refine ⟨y, by simp [hne], hyw, fun ρ i => ?_⟩
      by_cases hi : last ≤ i
      · rw [if_pos hi, bit_high (by omega)]
      · rw [if_neg hi]
    · obtain ⟨x, hx, hxw, hxb⟩ := constrain_spec (x := y) (start := last) (stop := r.length - 1) (value := 0) (by omega) (by omega) (Nat.two_pow_pos _)
      refine ⟨x, by simp only [ne_eq, hne, not_false_eq_true, if_pos]; exact hx, by omega, fun ρ i => ?_⟩
      rw [hxb, replaced]
      by_cases hi : last ≤ i
      · rw [if_pos hi]
        by_cases hi2 : i ≤ r.length - 1
        · rw [if_pos ⟨hi, hi2⟩]; simp
        · rw [if_neg (by omega), bit_high (by omega)]
      · rw [if_neg (by omega), if_neg hi]
  refine ⟨x, fetch_first hnew (by rw [hcon]; exact hx), hxw, ?_, ?_, ?_⟩
  · intro f hf' v hv ρ i hi1 hi2
    have := hc f hf'
    rw [hxb, if_neg (by omega), he f hf' v hv ρ i hi1 hi2]
  · intro f hf' hn ρ i hi1 hi2
    have := hc f hf'
    rw [hxb, if_neg (by omega), hf f hf' hn ρ i hi1 hi2, hsym ρ i (by omega)]
  · intro ρ i hno
    rw [hxb]
    by_cases hi : last ≤ i
    · rw [if_pos hi]
    · rw [if_neg hi, hg ρ i (Nat.zero_le _) (by omega) hno]

namespace RegFieldExample

/-- spec_reg.py:56-84. The fields are not in order. -/
def status : Reg := ⟨[(0x8, 0, 0)], 32, .ro,
  [⟨"LAN ID", 2, 3, some 0, .ro⟩, ⟨"LinkUp", 7, 7, some 0, .rw⟩, ⟨"Num VFs", 26, 26, some 0, .ro⟩, ⟨"IOV Active", 18, 18, some 0, .ro⟩,
    ⟨"PCIe Master Enable Status", 19, 19, some 1, .ro⟩]⟩

/-- spec_reg.py:774-792. -/
def tdbal : Reg := ⟨[(0x6000, 0x40, 127)], 32, .rw, [⟨"0", 0, 6, some 0, .iw⟩, ⟨"TDBAL", 7, 31, none, .rw⟩]⟩

/-- spec_reg.py:357-373. Bits 12 to 30 are in no field. -/
def pfvlvf : Reg := ⟨[(0xf100, 4, 63)], 32, .rw, [⟨"VLAN_Id", 0, 11, none, .rw⟩, ⟨"VI_En", 31, 31, none, .rw⟩]⟩

/-- spec_reg.py:202-213. -/
def rxpbsize : Reg := ⟨[(0x3c00, 4, 7)], 32, .rw, [⟨"SIZE", 10, 19, some 0x200, .rw⟩]⟩

theorem status_layout : Layout status := ⟨by decide, by simp [status], by simp [status]⟩
theorem tdbal_layout : Layout tdbal := ⟨by decide, by simp [tdbal], by simp [tdbal]⟩
theorem pfvlvf_layout : Layout pfvlvf := ⟨by decide, by simp [pfvlvf], by simp [pfvlvf]⟩

def ctx : Ctx := ⟨[("STATUS", status), ("TDBAL", tdbal), ("RXPBSIZE", rxpbsize)], [], fun _ i => i, fun _ i => i, fun _ => True⟩

/-- TDBAL 3 was written; STATUS and RXPBSIZE were not used yet. -/
def device : Device := ⟨fun n i => if n = "TDBAL" ∧ i = 3 then some (.sym 32 fun ρ => ρ 5) else none, fun _ _ => none, true, none, 0, []⟩

end RegFieldExample

open RegFieldExample in
/-- The hypotheses of `C51_initial_known` hold for STATUS, of `C51_initial_partial` for TDBAL. -/
example : (∃ x, fetch (fun _ i => i) true (fun _ _ => none) "STATUS" 0 status = some (x, update (fun _ _ => none) "STATUS" 0 status x) ∧ InitialValue status 0 x) ∧
    ∃ x, fetch (fun _ i => i) true (fun _ _ => none) "TDBAL" 4 tdbal = some (x, update (fun _ _ => none) "TDBAL" 4 tdbal x) ∧ InitialValue tdbal 4 x :=
  ⟨C51_initial_known _ _ _ _ _ status_layout (by simp [status]) rfl,
    C51_initial_partial _ _ _ _ _ tdbal_layout (by simp [tdbal])
      (by
        intro f hf hn i hi
        simp only [tdbal, List.mem_cons, List.not_mem_nil, or_false] at hf
        rcases hf with rfl | rfl
        · cases hn
        · exact ⟨⟨"0", 0, 6, some 0, .iw⟩, by simp [tdbal], Nat.zero_le _, by simpa using Nat.le_of_lt_succ hi⟩)
      ⟨⟨"TDBAL", 7, 31, none, .rw⟩, by simp [tdbal], rfl⟩ rfl⟩

open RegFieldExample in
/-- The hypotheses of `C51_change` hold for a symbolic value and for an initial one. -/
example : (∃ d' v, changeField ctx device "TDBAL" "TDBAL" 3 0x1234 = some d' ∧ d'.regs "TDBAL" 3 = some v ∧
      ∀ ρ i, i < 7 → (v.den ρ).testBit i = (ρ 5 % 2 ^ 32).testBit i) ∧
    ∃ d' v, changeField ctx device "RXPBSIZE" "SIZE" 2 0x155 = some d' ∧ d'.regs "RXPBSIZE" 2 = some v ∧ d'.regs "TDBAL" 3 = device.regs "TDBAL" 3 ∧
      ∀ ρ, (v.den ρ).testBit 10 = true := by
  constructor
  · obtain ⟨d', v, h, hv, -, -, ho, -, -⟩ := C51_change ctx device "TDBAL" "TDBAL" 3 0x1234 tdbal ⟨"TDBAL", 7, 31, none, .rw⟩
      (.sym 32 fun ρ => ρ 5) device.regs (by rfl) (by rfl) (by rfl) rfl (by decide) (by decide)
    exact ⟨d', v, h, hv, fun ρ i hi => ho ρ i (.inl hi)⟩
  · obtain ⟨d', v, h, hv, -, hi, -, ho, -⟩ := C51_change ctx device "RXPBSIZE" "SIZE" 2 0x155 rxpbsize ⟨"SIZE", 10, 19, some 0x200, .rw⟩
      (.bvv 32 0x80000) _ (by rfl) (by rfl) (by rfl) rfl (by decide) (by decide)
    exact ⟨d', v, h, hv, ho _ _ (by simp), fun ρ => hi ρ 10 (by decide) (by decide)⟩

/-- spec_reg.py:1489-1500. -/
def RegFieldExample.bar0 : Reg := ⟨[(0x10, 0, 0)], 32, .rw, [⟨"Low", 0, 31, none, .rw⟩]⟩

open RegFieldExample in
/-- The hypotheses of `C51_change_pci` hold for a register that was not used yet. -/
example : ∃ d' v, changeField { ctx with pci := [("BAR0", bar0)] } device "BAR0" "Low" 0 0xfebc0004 = some d' ∧ d'.pci "BAR0" 0 = some v ∧
    d'.regs = device.regs ∧ ∀ ρ, (v.den ρ).testBit 2 = true := by
  obtain ⟨d', v, h, hv, -, hi, -, -, hd⟩ := C51_change_pci { ctx with pci := [("BAR0", bar0)] } device "BAR0" "Low" 0 0xfebc0004 bar0
    ⟨"Low", 0, 31, none, .rw⟩ (.sym 32 fun ρ => ρ 0) _ (by rfl) (by rfl) (by rfl) (by rfl) rfl (by decide) (by decide)
  exact ⟨d', v, h, hv, by rw [hd], fun ρ => hi ρ 2 (by decide) (by decide)⟩

open RegFieldExample in
/-- C51 is false of the code for PFVLVF (spec_reg.py:357-373), whose second field has no initial value and comes after reserved
bits: these are not zero. -/
theorem C51_reserved_floats : ∃ (x : Val) (st : Store), Layout pfvlvf ∧ (pfvlvf.fields.Pairwise fun f g => f.stop < g.start) ∧
    fetch (fun _ i => i) true (fun _ _ => none) "PFVLVF" 0 pfvlvf = some (x, st) ∧
    (∀ f ∈ pfvlvf.fields, 12 < f.start ∨ f.stop < 12) ∧ ∃ ρ, (x.den ρ).testBit 12 = true := by
  refine ⟨.sym 32 fun ρ => ρ 0, _, pfvlvf_layout, by simp [pfvlvf], rfl, by simp [pfvlvf], fun _ => 2 ^ 12, by decide⟩

open RegFieldExample in
/-- C51 is false of the code for values that do not fit the field: if the register has a constant value, they change other bits. -/
theorem C51_too_large_spills : ∃ (d' : Device) (v old : Val) (st : Store),
    fetch ctx.fresh device.useInit device.regs "RXPBSIZE" 2 rxpbsize = some (old, st) ∧ changeField ctx device "RXPBSIZE" "SIZE" 2 0x400 = some d' ∧
    d'.regs "RXPBSIZE" 2 = some v ∧ ∀ ρ, (v.den ρ).testBit 20 = true ∧ (old.den ρ).testBit 20 = false := by
  refine ⟨_, .bvv 32 0x100000, .bvv 32 0x80000, _, rfl, rfl, rfl, fun ρ => ⟨?_, ?_⟩⟩
  · change (0x100000 % 2 ^ 32).testBit 20 = true
    decide
  · change (0x80000 % 2 ^ 32).testBit 20 = false
    decide

end Verif.Props
