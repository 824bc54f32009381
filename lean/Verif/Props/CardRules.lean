/-
C67: what the tables of the tool, spec_reg.py and spec_act.py, demand of any driver, and what they do not.
-/
import Verif.Props.CardSpec

set_option autoImplicit false

namespace Verif.Props
open Verif.Tool Verif.Tool.Registers Verif.Tool.CardSpec RegField RegWrite

namespace Card
open Verif.IxgbeDevice Verif.IxgbeRegs

/-! ### The actions -/

def oneBitIn (t : Table) (n f : String) : Bool :=
  match t.get n with
  | some r => (match r.field f with
    | some g => g.start == g.stop
    | none => true)
  | none => true

theorem oneBitIn_spec {t : Table} {n f : String} (h : oneBitIn t n f = true) : ∀ r g, t.get n = some r → r.field f = some g → g.start = g.stop := by
  intro r g h1 h2
  rw [oneBitIn, h1] at h
  simp only [h2, beq_iff_eq] at h
  exact h

mutual
def singleB : Cond → Bool
  | .reg n f => oneBitIn registers n f && oneBitIn pciRegs n f
  | .not a => singleB a
  | .or l => singlesB l
  | .and l => singlesB l
def singlesB : List Cond → Bool
  | [] => true
  | a :: l => singleB a && singlesB l
end

mutual
theorem singleB_spec {c : Ctx} (hr : c.regs = registers) (hp : c.pci = pciRegs) : ∀ p : Cond, singleB p = true → Single c p
  | .reg n f, h => by
    rw [singleB, Bool.and_eq_true] at h
    rw [Single, OneBit, hr, hp]
    exact ⟨oneBitIn_spec h.1, oneBitIn_spec h.2⟩
  | .not a, h => by
    rw [singleB] at h
    rw [Single]
    exact singleB_spec hr hp a h
  | .or l, h => by
    rw [singleB] at h
    rw [Single]
    exact singlesB_spec hr hp l h
  | .and l, h => by
    rw [singleB] at h
    rw [Single]
    exact singlesB_spec hr hp l h
theorem singlesB_spec {c : Ctx} (hr : c.regs = registers) (hp : c.pci = pciRegs) : ∀ l : List Cond, singlesB l = true → Singles c l
  | [], _ => by rw [Singles]; trivial
  | a :: l, h => by
    rw [singlesB, Bool.and_eq_true] at h
    rw [Singles]
    exact ⟨singleB_spec hr hp a h.1, singlesB_spec hr hp l h.2⟩
end

theorem actions_single {c : Ctx} (hr : c.regs = registers) (hp : c.pci = pciRegs) : ∀ a ∈ actions, ∀ p, a.precond = some p → Single c p := by
  have key : (actionSpecs.all fun a => match a.precond with | some p => singleB p | none => true) = true := by decide +kernel
  rw [List.all_eq_true] at key
  intro a ha p hap
  obtain ⟨s, hs, rfl⟩ := List.mem_map.1 ha
  have := key s hs
  change s.precond = some p at hap
  rw [hap] at this
  exact singleB_spec hr hp p this

/-- Whether an action is about the field. -/
def about (n g : String) (a : ActSpec) : Bool :=
  match a.kind with
  | .write n' g' _ => n' == n && g' == g
  | .set n' g' => n' == n && g' == g
  | .clear n' g' => n' == n && g' == g

theorem covers_about {c : Ctx} {reg : String} {f : Field} {v : Val} {a : ActSpec} (h : Covers c reg f v a.kind.toAct) : about reg f.name a = true := by
  unfold about
  cases hk : a.kind with
  | write n g t => rw [hk] at h; obtain ⟨h1, h2, -⟩ := h; simp [h1, h2]
  | set n g => rw [hk] at h; obtain ⟨h1, h2, -⟩ := h; simp [h1, h2]
  | clear n g => rw [hk] at h; obtain ⟨h1, h2, -⟩ := h; simp [h1, h2]

/-- The precondition is that a bit is `b`. -/
def demands (n g : String) (b : Bool) : Option Cond → Bool
  | some (.reg n' g') => b && n' == n && g' == g
  | some (.not (.reg n' g')) => !b && n' == n && g' == g
  | _ => false

/-- An accepted change of a field: there is an action for it. -/
theorem accepted_action {c : Ctx} {trivially : Val → Val → Bool} {d d' : Device} {name : String} {i : Nat} {value old : Val} {st : Store} {f : Field}
    (hr : c.regs = registers) (hp : c.pci = pciRegs) (ht : CardFaithful trivially) (hn : (registers.get name).isSome = true)
    (hold : fetch c.fresh d.useInit d.regs name i (reg name) = some (old, st)) (h : write c trivially actions d name i value = some d')
    (hf : f ∈ (reg name).fields) (hc : ∃ ρ, c.constraints ρ ∧ content f old ρ ≠ content f value ρ) (ha : f.access ≠ .iw) :
    ∃ a ∈ actionSpecs, about name f.name a = true ∧ Covers c name f value a.kind.toAct ∧ ∀ p, a.precond = some p →
      ∃ d', SameRegisters c d d' ∧ ∀ ρ, c.constraints ρ → condTrue (bitOf c d' i ρ) p = true := by
  obtain ⟨a, h1, h2, h3⟩ := C52_justified c trivially actions d d' name i value (reg name) old st (fun a b hab => (ht a b).1 hab) (actions_single hr hp)
    (by rw [hr]; exact get_reg hn) hold h f hf hc ha
  obtain ⟨s, hs, rfl⟩ := List.mem_map.1 h1
  exact ⟨s, hs, covers_about h2, h2, h3⟩

theorem same_stored {c : Ctx} {d d' : Device} (h : SameRegisters c d d') {n : String} {k : Nat} {v : Val} (hv : d.regs n k = some v) : d'.regs n k = some v :=
  initialised_some h.1 hv

/-- An accepted change of a field all of whose actions demand a bit. -/
theorem accepted_demand {c : Ctx} {trivially : Val → Val → Bool} {d d' : Device} {name : String} {i : Nat} {value old : Val} {st : Store} {f : Field}
    {n g : String} {j : Nat} {b : Bool}
    (hr : c.regs = registers) (hp : c.pci = pciRegs) (ht : CardFaithful trivially) (hn : (registers.get name).isSome = true)
    (hold : fetch c.fresh d.useInit d.regs name i (reg name) = some (old, st)) (h : write c trivially actions d name i value = some d')
    (hf : f ∈ (reg name).fields) (hc : ∃ ρ, c.constraints ρ ∧ content f old ρ ≠ content f value ρ) (ha : f.access ≠ .iw)
    (hk : (actionSpecs.all fun a => !about name f.name a || demands n g b a.precond) = true) (hg : bitAt n g j = true)
    {v : Val} (hv : d.regs n ((reg n).slot i) = some v) : ∀ ρ, c.constraints ρ → (v.den ρ).testBit j = b := by
  obtain ⟨a, h1, h2, -, h4⟩ := accepted_action hr hp ht hn hold h hf hc ha
  have hk := List.all_eq_true.1 hk a h1
  rw [h2, Bool.not_true, Bool.false_or] at hk
  unfold bitAt at hg
  cases hfl : (reg n).field g with
  | none => rw [hfl] at hg; cases hg
  | some fl =>
    rw [hfl] at hg
    simp only [Bool.and_eq_true, beq_iff_eq, decide_eq_true_eq] at hg
    obtain ⟨⟨⟨e1, -⟩, -⟩, e2⟩ := hg
    have hbit : ∀ d' : Device, SameRegisters c d d' → ∀ ρ, bitOf c d' i ρ n g = (v.den ρ).testBit j := by
      intro d' hs ρ
      simp only [bitOf, hr, get_reg e2, same_stored hs hv, hfl, e1]
    unfold demands at hk
    split at hk
    · rename_i n' g' hpre
      simp only [Bool.and_eq_true, beq_iff_eq] at hk
      obtain ⟨⟨rfl, rfl⟩, rfl⟩ := hk
      obtain ⟨d1, hs, hall⟩ := h4 _ hpre
      intro ρ hρ
      have := hall ρ hρ
      rwa [condTrue, hbit d1 hs] at this
    · rename_i n' g' hpre
      simp only [Bool.and_eq_true, beq_iff_eq, Bool.not_eq_true'] at hk
      obtain ⟨⟨rfl, rfl⟩, rfl⟩ := hk
      obtain ⟨d1, hs, hall⟩ := h4 _ hpre
      intro ρ hρ
      have := hall ρ hρ
      rw [condTrue, condTrue, hbit d1 hs] at this
      simpa using this
    · cases hk

theorem mem_field {n g : String} {f : Field} (h : (reg n).field g = some f) : f ∈ (reg n).fields := by
  unfold Reg.field at h
  exact List.mem_of_find?_eq_some h

/-- The field and its bits. -/
def hasField (n g : String) (a b : Nat) : Bool := (registers.get n).isSome && (reg n).fields.any fun f => f.name == g && f.start == a && f.stop == b && f.access == .rw

theorem hasField_spec {n g : String} {a b : Nat} (h : hasField n g a b = true) :
    (registers.get n).isSome = true ∧ ∃ f ∈ (reg n).fields, f.name = g ∧ f.start = a ∧ f.stop = b ∧ f.access ≠ .iw := by
  unfold hasField at h
  simp only [Bool.and_eq_true, List.any_eq_true, beq_iff_eq] at h
  obtain ⟨h1, f, hf, ⟨⟨h2, h3⟩, h4⟩, h5⟩ := h
  exact ⟨h1, f, hf, h2, h3, h4, by rw [h5]; decide⟩

end Card

section Rules
variable (c : Ctx) (trivially : Val → Val → Bool) (hr : c.regs = registers) (hp : c.pci = pciRegs) (ht : CardFaithful trivially)
  (d d' : Device) (i : Nat) (value old v : Val) (st : Store)
include hr hp ht

/-- C67: whatever the driver, a new tail of a receive queue is only accepted if the queue is enabled, whatever the symbols are. -/
theorem C67_receive_tail (r : Reg) (hreg : registers.get "RDT" = some r) (hold : fetch c.fresh d.useInit d.regs "RDT" i r = some (old, st))
    (hn : ∃ ρ, c.constraints ρ ∧ old.den ρ % 2 ^ 16 ≠ value.den ρ % 2 ^ 16) (hv : d.regs "RXDCTL" i = some v)
    (h : write c trivially actions d "RDT" i value = some d') : ∀ ρ, c.constraints ρ → (v.den ρ).testBit 25 = true := by
  obtain rfl : r = Card.reg "RDT" := by have := Card.get_reg (name := "RDT") (by rw [hreg]; rfl); rw [hreg] at this; exact Option.some.inj this
  obtain ⟨h1, f, h2, h3, h4, h5, h6⟩ := Card.hasField_spec (n := "RDT") (g := "RDT") (a := 0) (b := 15) (by decide +kernel)
  exact Card.accepted_demand hr hp ht h1 hold h h2 (by simpa [content, h4, h5] using hn) h6 (n := "RXDCTL") (g := "ENABLE") (b := true)
    (by rw [h3]; decide +kernel) (by decide +kernel) (by rw [Card.slot_index (by decide +kernel)]; exact hv)

/-- C67: the same of a queue to send. -/
theorem C67_transmit_tail (r : Reg) (hreg : registers.get "TDT" = some r) (hold : fetch c.fresh d.useInit d.regs "TDT" i r = some (old, st))
    (hn : ∃ ρ, c.constraints ρ ∧ old.den ρ % 2 ^ 16 ≠ value.den ρ % 2 ^ 16) (hv : d.regs "TXDCTL" i = some v)
    (h : write c trivially actions d "TDT" i value = some d') : ∀ ρ, c.constraints ρ → (v.den ρ).testBit 25 = true := by
  obtain rfl : r = Card.reg "TDT" := by have := Card.get_reg (name := "TDT") (by rw [hreg]; rfl); rw [hreg] at this; exact Option.some.inj this
  obtain ⟨h1, f, h2, h3, h4, h5, h6⟩ := Card.hasField_spec (n := "TDT") (g := "TDT") (a := 0) (b := 15) (by decide +kernel)
  exact Card.accepted_demand hr hp ht h1 hold h h2 (by simpa [content, h4, h5] using hn) h6 (n := "TXDCTL") (g := "ENABLE") (b := true)
    (by rw [h3]; decide +kernel) (by decide +kernel) (by rw [Card.slot_index (by decide +kernel)]; exact hv)

/-- C67: which packets are filtered, FCTRL.MPE, UPE and BAM, only changes while the device does not receive. -/
theorem C67_filters_stopped (r : Reg) (hreg : registers.get "FCTRL" = some r) (hold : fetch c.fresh d.useInit d.regs "FCTRL" i r = some (old, st))
    (hn : ∃ j, (j = 8 ∨ j = 9 ∨ j = 10) ∧ ∃ ρ, c.constraints ρ ∧ (old.den ρ).testBit j ≠ (value.den ρ).testBit j) (hv : d.regs "RXCTRL" 0 = some v)
    (h : write c trivially actions d "FCTRL" i value = some d') : ∀ ρ, c.constraints ρ → (v.den ρ).testBit 0 = false := by
  obtain rfl : r = Card.reg "FCTRL" := by have := Card.get_reg (name := "FCTRL") (by rw [hreg]; rfl); rw [hreg] at this; exact Option.some.inj this
  have hslot : (Card.reg "RXCTRL").slot i = 0 := by unfold Reg.slot; rw [if_neg (by decide +kernel)]
  have key : ∀ x j : Nat, x / 2 ^ j % 2 = (x.testBit j).toNat := fun x j => by
    rw [Nat.toNat_testBit]
  obtain ⟨j, hj, ρ, hρ, hne⟩ := hn
  have hdiff : old.den ρ / 2 ^ j % 2 ^ (j - j + 1) ≠ value.den ρ / 2 ^ j % 2 ^ (j - j + 1) := by
    rw [Nat.sub_self, Nat.zero_add, Nat.pow_one, key, key]
    intro e
    apply hne
    revert e
    cases (old.den ρ).testBit j <;> cases (value.den ρ).testBit j <;> simp
  rcases hj with rfl | rfl | rfl
  · obtain ⟨h1, f, h2, h3, h4, h5, h6⟩ := Card.hasField_spec (n := "FCTRL") (g := "MPE") (a := 8) (b := 8) (by decide +kernel)
    exact Card.accepted_demand hr hp ht h1 hold h h2 ⟨ρ, hρ, by rw [content, content, h4, h5]; exact hdiff⟩ h6 (n := "RXCTRL") (g := "RXEN") (b := false)
      (by rw [h3]; decide +kernel) (by decide +kernel) (by rw [hslot]; exact hv)
  · obtain ⟨h1, f, h2, h3, h4, h5, h6⟩ := Card.hasField_spec (n := "FCTRL") (g := "UPE") (a := 9) (b := 9) (by decide +kernel)
    exact Card.accepted_demand hr hp ht h1 hold h h2 ⟨ρ, hρ, by rw [content, content, h4, h5]; exact hdiff⟩ h6 (n := "RXCTRL") (g := "RXEN") (b := false)
      (by rw [h3]; decide +kernel) (by decide +kernel) (by rw [hslot]; exact hv)
  · obtain ⟨h1, f, h2, h3, h4, h5, h6⟩ := Card.hasField_spec (n := "FCTRL") (g := "BAM") (a := 10) (b := 10) (by decide +kernel)
    exact Card.accepted_demand hr hp ht h1 hold h h2 ⟨ρ, hρ, by rw [content, content, h4, h5]; exact hdiff⟩ h6 (n := "RXCTRL") (g := "RXEN") (b := false)
      (by rw [h3]; decide +kernel) (by decide +kernel) (by rw [hslot]; exact hv)

/-- C67: a field that no action names cannot be changed. -/
theorem C67_unnamed (name : String) (r : Reg) (f : Field) (hreg : registers.get name = some r) (hf : f ∈ r.fields) (ha : f.access ≠ .iw)
    (hno : ∀ a ∈ actions, ∀ t, a.act ≠ .write name f.name t ∧ a.act ≠ .set name f.name ∧ a.act ≠ .clear name f.name)
    (hold : fetch c.fresh d.useInit d.regs name i r = some (old, st)) (hn : ∃ ρ, c.constraints ρ ∧ content f old ρ ≠ content f value ρ) :
    write c trivially actions d name i value = none := by
  obtain rfl : r = Card.reg name := by have := Card.get_reg (name := name) (by rw [hreg]; rfl); rw [hreg] at this; exact Option.some.inj this
  cases h : write c trivially actions d name i value with
  | none => rfl
  | some d' =>
    exfalso
    obtain ⟨a, h1, -, h3, -⟩ := Card.accepted_action hr hp ht (by rw [hreg]; rfl) hold h hf hn ha
    have := hno _ (List.mem_map.2 ⟨a, h1, rfl⟩)
    change ∀ t, a.kind.toAct ≠ _ ∧ a.kind.toAct ≠ _ ∧ a.kind.toAct ≠ _ at this
    cases hk : a.kind.toAct with
    | write n g t => rw [hk] at h3 this; obtain ⟨rfl, rfl, -⟩ := h3; exact (this t).1 rfl
    | set n g => rw [hk] at h3 this; obtain ⟨rfl, rfl, -⟩ := h3; exact (this fun _ => true).2.1 rfl
    | clear n g => rw [hk] at h3 this; obtain ⟨rfl, rfl, -⟩ := h3; exact (this fun _ => true).2.2 rfl

/-- C67 fails for header splitting: spec_act.py:117-142 name a register "PRSTYPE", but the table has "PSRTYPE", so that no
driver can change any of its fields. -/
theorem C67_split_refused (r : Reg) (f : Field) (hreg : registers.get "PSRTYPE" = some r) (hf : f ∈ r.fields)
    (hold : fetch c.fresh d.useInit d.regs "PSRTYPE" i r = some (old, st)) (hn : ∃ ρ, c.constraints ρ ∧ content f old ρ ≠ content f value ρ) :
    write c trivially actions d "PSRTYPE" i value = none := by
  have hrw : ∀ f ∈ (Card.reg "PSRTYPE").fields, f.access ≠ .iw := by decide +kernel
  have hno : (actionSpecs.all fun a => a.kind.toAct.register != "PSRTYPE") = true := by decide +kernel
  rw [List.all_eq_true] at hno
  have e : r = Card.reg "PSRTYPE" := by have := Card.get_reg (name := "PSRTYPE") (by rw [hreg]; rfl); rw [hreg] at this; exact Option.some.inj this
  refine C67_unnamed c trivially hr hp ht d i value old st "PSRTYPE" r f hreg hf (hrw f (e ▸ hf)) ?_ hold hn
  intro a ha t
  obtain ⟨s, hs, rfl⟩ := List.mem_map.1 ha
  have := hno s hs
  rw [bne_iff_ne] at this
  change s.kind.toAct ≠ _ ∧ s.kind.toAct ≠ _ ∧ s.kind.toAct ≠ _
  refine ⟨fun h => this (by rw [h]; rfl), fun h => this (by rw [h]; rfl), fun h => this (by rw [h]; rfl)⟩

/-- C67 fails for the type of descriptors, SRRCTL.DESCTYPE: no value passes the test of spec_act.py:106, although four should. -/
theorem C67_type_refused (r : Reg) (hreg : registers.get "SRRCTL" = some r)
    (hold : fetch c.fresh d.useInit d.regs "SRRCTL" i r = some (old, st))
    (hn : ∃ ρ, c.constraints ρ ∧ old.den ρ / 2 ^ 25 % 2 ^ 3 ≠ value.den ρ / 2 ^ 25 % 2 ^ 3) :
    write c trivially actions d "SRRCTL" i value = none := by
  obtain rfl : r = Card.reg "SRRCTL" := by have := Card.get_reg (name := "SRRCTL") (by rw [hreg]; rfl); rw [hreg] at this; exact Option.some.inj this
  obtain ⟨h1, f, h2, h3, h4, h5, h6⟩ := Card.hasField_spec (n := "SRRCTL") (g := "DESCTYPE") (a := 25) (b := 27) (by decide +kernel)
  cases h : write c trivially actions d "SRRCTL" i value with
  | none => rfl
  | some d' =>
    exfalso
    have hn' : ∃ ρ, c.constraints ρ ∧ content f old ρ ≠ content f value ρ := by simpa [content, h4, h5] using hn
    obtain ⟨a, g1, g2, g3, -⟩ := Card.accepted_action hr hp ht h1 hold h h2 hn' h6
    have key : (actionSpecs.all fun a => !Card.about "SRRCTL" "DESCTYPE" a || match a.kind with
      | .write _ _ t => (List.range 8).all fun v => !t.eval v
      | _ => false) = true := by decide +kernel
    have hk := List.all_eq_true.1 key a g1
    rw [h3] at g2
    rw [g2, Bool.not_true, Bool.false_or] at hk
    obtain ⟨ρ, hρ, -⟩ := hn
    cases ha : a.kind with
    | write n g t =>
      rw [ha] at hk g3
      obtain ⟨-, -, g4⟩ := g3
      have hlt : content f value ρ < 8 := by
        rw [content, h4, h5]
        exact Nat.mod_lt _ (by decide)
      have := List.all_eq_true.1 hk _ (List.mem_range.2 hlt)
      rw [g4 ρ hρ] at this
      cases this
    | set n g => rw [ha] at hk; cases hk
    | clear n g => rw [ha] at hk; cases hk

/-- C67 fails for lengths of rings: those of an odd multiple of 128 bytes, which the card supports, are refused, since
spec_act.py:70 and 218 test eight bits instead of seven. -/
theorem C67_length_refused (name : String) (hname : name = "RDLEN" ∨ name = "TDLEN") (r : Reg) (hreg : registers.get name = some r)
    (hold : fetch c.fresh d.useInit d.regs name i r = some (old, st))
    (hn : ∃ ρ, c.constraints ρ ∧ old.den ρ % 2 ^ 20 ≠ value.den ρ % 2 ^ 20 ∧ value.den ρ % 256 = 128) :
    write c trivially actions d name i value = none := by
  obtain rfl : r = Card.reg name := by have := Card.get_reg (name := name) (by rw [hreg]; rfl); rw [hreg] at this; exact Option.some.inj this
  have hall : Card.hasField name "LEN" 0 19 = true ∧ (actionSpecs.all fun a => !Card.about name "LEN" a || match a.kind with
      | .write _ _ (.fn f) => (List.range (2 ^ 12)).all fun v => !f (v * 256 + 128)
      | _ => false) = true := by
    rcases hname with rfl | rfl <;> exact ⟨by decide +kernel, by decide +kernel⟩
  obtain ⟨h1, f, h2, h3, h4, h5, h6⟩ := Card.hasField_spec hall.1
  cases h : write c trivially actions d name i value with
  | none => rfl
  | some d' =>
    exfalso
    obtain ⟨ρ, hρ, hne, h128⟩ := hn
    have hcon : ∀ x : Val, content f x ρ = x.den ρ % 2 ^ 20 := fun x => by rw [content, h4, h5, Nat.pow_zero, Nat.div_one]
    obtain ⟨a, g1, g2, g3, -⟩ := Card.accepted_action hr hp ht h1 hold h h2 ⟨ρ, hρ, by rw [hcon, hcon]; exact hne⟩ h6
    have hk := List.all_eq_true.1 hall.2 a g1
    rw [h3] at g2
    rw [g2, Bool.not_true, Bool.false_or] at hk
    cases ha : a.kind with
    | write n g t =>
      rw [ha] at hk g3
      cases t with
      | fn t =>
        obtain ⟨-, -, g4⟩ := g3
        have e : content f value ρ = (value.den ρ % 2 ^ 20 / 256) * 256 + 128 := by rw [hcon]; omega
        have := List.all_eq_true.1 hk (value.den ρ % 2 ^ 20 / 256) (List.mem_range.2 (by omega))
        have g5 : t (content f value ρ) = true := g4 ρ hρ
        rw [e] at g5
        rw [g5] at this
        cases this
      | always => cases hk
      | lowZero n => cases hk
    | set n g => rw [ha] at hk; cases hk
    | clear n g => rw [ha] at hk; cases hk

end Rules

namespace Card
open Verif.IxgbeDevice Verif.IxgbeRegs

/-- A driver that, once the device is set up, starts to receive although the data path is still in use (as SECRXSTAT tells it), and no queue is enabled. -/
def rashOps : List Op := initOps ++ promiscuousOps ++ macOps ++ [.expect IxgbeSetup.SECRXSTAT (bit 0) true, setBits IxgbeSetup.RXCTRL (bit 0)]

/-- A driver that resets the device while it receives: it disables the first queue, enables the second and resets. -/
def abruptOps : List Op := pciOps ++ (disableOps 0 ++ ([setBits (RXDCTL 1) (bit 25), .expect (RXDCTL 1) (bit 25) false] ++ (stopOps ++ resetOps)))

end Card

/-- C67 fails for when to start receiving: the data path must be halted, as spec_act.py:168-182 say, but
"Enable Receive" of line 12 is another action on the same bit that only asks that it is not set, and it is enough. -/
theorem C67_rash (c : Ctx) (trivially : Val → Val → Bool) (bar0 bar1 : Val) (l : List (Op × (Env → Prop))) (hregs : c.regs = registers) (hpci : c.pci = pciRegs)
    (ht : CardFaithful trivially) (hl : l.map (·.1) = Card.rashOps) (hf : Card.Fine l) :
    ∃ d v w x, run c trivially (fresh bar0 bar1) l = some d ∧ d.regs "RXCTRL" 0 = some v ∧ d.regs "SECRXSTAT" 0 = some w ∧ d.regs "RXDCTL" 0 = some x ∧
      ∀ ρ, (v.den ρ).testBit 0 = true ∧ (w.den ρ).testBit 0 = false ∧ (x.den ρ).testBit 25 = false := by
  have hb : Card.Base c trivially := ⟨hregs, hpci, ht⟩
  have key : Card.Exec c trivially Card.rashOps (fresh bar0 bar1) fun d => Card.BitIs d "RXCTRL" 0 0 true ∧ Card.BitIs d "SECRXSTAT" 0 0 false ∧
      Card.BitIs d "RXDCTL" 0 25 false := by
    refine (Card.exec_init hb bar0 bar1).append fun d1 h1 => ?_
    refine Card.Exec.cons fun con hs _ => ?_
    obtain ⟨d2, e1, e2, e3⟩ := Card.expect_new (c := { c with constraints := con }) (b := true) (f := Verif.IxgbeRegs.bit 0) (hb.setting hs) h1.good
      (Card.one "SECRXSTAT" Verif.IxgbeSetup.SECRXSTAT (by decide +kernel)) h1.useInit
      (by rw [Card.slot_zero]; exact h1.stat rfl) (k := 0) (by decide +kernel) (by decide)
    rw [Card.slot_zero] at e2 e3
    have b2 : Card.BitIs d2 "SECRXSTAT" 0 0 false := ⟨_, e3, fun ρ => by simp [Val.den]⟩
    have x2 := h1.enabled.frame e2 (by simp)
    refine ⟨d2, e1, Card.Exec.cons fun con hs _ => ?_⟩
    obtain ⟨d6, old6, l1, l2, l3, l4, -⟩ := Card.modify_plain_ok (i := 0) (m := Verif.IxgbeRegs.bit 0) (n := Verif.IxgbeRegs.bit 0)
      (B := [("RXCTRL", "RXEN", false), ("SECRXSTAT", "SECRX_RDY", false)])
      (hb.setting hs) e2.good (Card.one "RXCTRL" Verif.IxgbeSetup.RXCTRL (by decide +kernel))
      (Card.knows_cons (hb.setting hs) e2.good (j := 0) (by decide +kernel) (by rw [Card.slot_zero]; exact x2)
        (Card.knows_cons (hb.setting hs) e2.good (j := 0) (by decide +kernel) (by rw [Card.slot_zero]; exact b2) Card.knows_nil)) (by decide +kernel)
    rw [Card.slot_zero] at l2 l3
    exact ⟨d6, l1, Card.Exec.nil ⟨⟨_, l3, fun ρ => Card.modified_set l4 (by decide) (by decide) ρ⟩, b2.frame l2 (by simp),
      (h1.queue.frame e2 (by simp)).frame l2 (by simp)⟩⟩
  obtain ⟨d, h, ⟨v, h1, h2⟩, ⟨w, h3, h4⟩, x, h5, h6⟩ := key l hl hf
  exact ⟨d, v, w, x, h, h1, h3, h5, fun ρ => ⟨h2 ρ, h4 ρ, h6 ρ⟩⟩

/-- C67 fails for when to reset: the data sheet, which spec_act.py:454-462 quote, wants all queues to be disabled before, but the
tool only looks at the first one, since the index of a condition is that of the register that is written. -/
theorem C67_abrupt (c : Ctx) (trivially : Val → Val → Bool) (bar0 bar1 : Val) (l : List (Op × (Env → Prop))) (hregs : c.regs = registers) (hpci : c.pci = pciRegs)
    (ht : CardFaithful trivially) (hl : l.map (·.1) = Card.abruptOps) (hf : Card.Fine l) :
    ∃ d v, run c trivially (fresh bar0 bar1) l = some d ∧ d.useInit = true ∧ d.regs "RXDCTL" 1 = some v ∧ ∀ ρ, (v.den ρ).testBit 25 = true := by
  have hb : Card.Base c trivially := ⟨hregs, hpci, ht⟩
  have key : Card.Exec c trivially Card.abruptOps (fresh bar0 bar1) fun d => d.useInit = true ∧ Card.BitIs d "RXDCTL" 1 25 true := by
    refine (Card.exec_pciOps hb (Card.fresh_good bar0 bar1)).append fun d1 k1 => ?_
    refine (Card.exec_disable hb (q := 0) (by decide) k1.good).append fun d2 ⟨k2, b2⟩ => ?_
    have hslot : (Card.reg "RXDCTL").slot 1 = 1 := Card.slot_index (by decide +kernel) 1
    refine Card.Exec.cons fun con hs _ => ?_
    obtain ⟨d3, e1, e2, e3⟩ := Card.modify_self (i := 1) (g := "ENABLE") (b := true) (j := 25) (action := "Enable Receive Queue Enable")
      (m := Verif.IxgbeRegs.bit 25) (n := Verif.IxgbeRegs.bit 25)
      (hb.setting hs) k2.good (Card.at_rxdctl (q := 1) (by decide)) Card.knows_nil (by decide +kernel) (Card.find_spec (by decide +kernel)) (by decide +kernel) (by decide +kernel) (by decide)
      (by decide) (by decide)
    refine ⟨d3, e1, Card.Exec.cons fun con hs _ => ⟨d3, Card.expect_bit (hb.setting hs) (Card.at_rxdctl (q := 1) (by decide)) (by decide) e3, ?_⟩⟩
    rw [hslot] at e2 e3
    have hctrl : d3.regs "CTRL" 0 = none := by
      rw [e2.frame _ _ (by simp), k2.frame _ _ (by simp), k1.frame _ (by simp)]; rfl
    have huse : d3.useInit = false := by rw [e2.useInit, k2.useInit, k1.useInit]; rfl
    refine (Card.exec_stop hb e2.good huse hctrl (b2.frame e2 (by simp))).append fun d4 ⟨k4, c4⟩ => ?_
    refine (Card.exec_reset hb k4.good c4).imp fun d5 ⟨_, u5, f5, _, _⟩ => ⟨u5, ?_⟩
    obtain ⟨v, q1, q2⟩ := k4.bit e3 (by decide)
    exact ⟨v, by rw [f5 _ (by decide)]; exact q1, q2⟩
  obtain ⟨d, h, h1, v, h2, h3⟩ := key l hl hf
  exact ⟨d, v, h, h1, h2, h3⟩

/-- The field of an action. -/
def Card.actField : Act → String
  | .write _ f _ => f
  | .set _ f => f
  | .clear _ f => f

def Card.isWrite : Act → Bool
  | .write _ _ _ => true
  | _ => false

mutual
def Card.condNames : Cond → List (String × String)
  | .reg n f => [(n, f)]
  | .not a => Card.condNames a
  | .or l => Card.condsNames l
  | .and l => Card.condsNames l
def Card.condsNames : List Cond → List (String × String)
  | [] => []
  | a :: l => Card.condNames a ++ Card.condsNames l
end

/-- The field of a register of the device, or else of its PCI configuration. -/
def Card.lookup (n f : String) : Option Field :=
  match registers.get n with
  | some r => r.field f
  | none => (pciRegs.get n).bind fun r => r.field f

/-- C67: every action of spec_act.py but the seven on "PRSTYPE" is about a field that spec_reg.py has, of one bit exactly if it is
set or cleared; and all conditions are about fields of one bit that it has. -/
theorem C67_names : (∀ a ∈ actions, a.act.register ≠ "PRSTYPE" →
      ∃ f, Card.lookup a.act.register (Card.actField a.act) = some f ∧ (Card.isWrite a.act = true ↔ f.start ≠ f.stop)) ∧
    (∀ a ∈ actions, ∀ x ∈ (a.precond.map Card.condNames).getD [] ++ a.postcond.map (fun y => (y.1, y.2.1)), ∃ f, Card.lookup x.1 x.2 = some f ∧ f.start = f.stop) ∧
    (∀ a ∈ actions, a.act.register = "PRSTYPE" → ∀ f, Card.lookup a.act.register f = none) ∧
    (actions.filter fun a => a.act.register == "PRSTYPE").length = 7 ∧ (actions.map Action.name).Nodup := by
  have h1 : (actionSpecs.all fun a => a.kind.toAct.register == "PRSTYPE" || (match Card.lookup a.kind.toAct.register (Card.actField a.kind.toAct) with
      | some f => Card.isWrite a.kind.toAct == (f.start != f.stop)
      | none => false)) = true := by decide +kernel
  have h2 : (actionSpecs.all fun a => ((a.precond.map Card.condNames).getD [] ++ a.postcond.map (fun y => (y.1, y.2.1))).all fun x =>
      match Card.lookup x.1 x.2 with
      | some f => f.start == f.stop
      | none => false) = true := by decide +kernel
  have h3 : registers.get "PRSTYPE" = none ∧ pciRegs.get "PRSTYPE" = none := by
    constructor <;> (rw [← Option.isNone_iff_eq_none]; decide +kernel)
  refine ⟨fun a ha hn => ?_, fun a ha x hx => ?_, fun a _ he f => ?_, by decide +kernel, by decide +kernel⟩
  · obtain ⟨s, hs, rfl⟩ := List.mem_map.1 ha
    have := List.all_eq_true.1 h1 s hs
    change s.kind.toAct.register ≠ _ at hn
    rw [Bool.or_eq_true, beq_iff_eq, or_iff_right hn] at this
    change ∃ f, Card.lookup s.kind.toAct.register (Card.actField s.kind.toAct) = some f ∧ (Card.isWrite s.kind.toAct = true ↔ f.start ≠ f.stop)
    cases hl : Card.lookup s.kind.toAct.register (Card.actField s.kind.toAct) with
    | none => rw [hl] at this; cases this
    | some f =>
      rw [hl] at this
      simp only [beq_iff_eq] at this
      exact ⟨f, rfl, by rw [this, bne_iff_ne]⟩
  · obtain ⟨s, hs, rfl⟩ := List.mem_map.1 ha
    have := List.all_eq_true.1 (List.all_eq_true.1 h2 s hs) x hx
    cases hl : Card.lookup x.1 x.2 with
    | none => rw [hl] at this; cases this
    | some f =>
      rw [hl] at this
      simp only [beq_iff_eq] at this
      exact ⟨f, rfl, this⟩
  · rw [Card.lookup, he, h3.1, h3.2]; rfl

namespace CardRulesExample

def ctx : Ctx := ⟨registers, pciRegs, fun _ _ => 0, fun _ _ => 0, fun _ => True⟩

open Classical in
noncomputable def triv (a b : Val) : Bool := decide (∀ ρ, a.den ρ = b.den ρ)

theorem faithful : CardFaithful triv := fun a b => by simp [triv]

theorem setting : Card.Setting ctx triv := ⟨rfl, rfl, ⟨fun _ => 0, trivial⟩, faithful⟩

/-- A device with two registers. -/
def dev (n : String) (i : Nat) (v : Val) (n' : String) (i' : Nat) (v' : Val) : Device :=
  ⟨fun m k => if m = n ∧ k = i then some v else if m = n' ∧ k = i' then some v' else none, fun _ _ => none, true, none, 0, []⟩

theorem dev_good {n n' : String} {i i' : Nat} {v v' : Val} (h : v.width = 32) (h' : v'.width = 32) : Card.Good (dev n i v n' i' v') := by
  refine ⟨fun m k w hw => ?_, fun m r k w _ _ _ hw => (by cases hw), fun a ha => (by cases ha)⟩
  simp only [dev] at hw
  split at hw
  · cases hw; exact h
  · split at hw
    · cases hw; exact h'
    · cases hw

/-- The third queue is enabled and its new tail is accepted; the old one is any. -/
example : ∃ d', let d := dev "RDT" 2 (.sym 32 fun ρ => ρ 7 % 65536) "RXDCTL" 2 (.bvv 32 0x2000000)
    write ctx triv actions d "RDT" 2 (.bvv 32 8) = some d' ∧ d.regs "RXDCTL" 2 = some (.bvv 32 0x2000000) ∧
    fetch ctx.fresh d.useInit d.regs "RDT" 2 (Card.reg "RDT") = some (.sym 32 fun ρ => ρ 7 % 65536, d.regs) ∧
    registers.get "RDT" = some (Card.reg "RDT") ∧ ∃ ρ, (Val.sym 32 fun ρ => ρ 7 % 65536).den ρ % 2 ^ 16 ≠ (Val.bvv 32 8).den ρ % 2 ^ 16 := by
  have hl : Card.Locate 0x1098 "RDT" 2 := Card.locate (by decide +kernel) ⟨⟨0, 0x1018, 0x40, 63⟩, by decide +kernel, by decide, by decide, rfl⟩
  have hg : Card.Good (dev "RDT" 2 (.sym 32 fun ρ => ρ 7 % 65536) "RXDCTL" 2 (.bvv 32 0x2000000)) := dev_good rfl rfl
  obtain ⟨d', h1, -⟩ := Card.write_plain_ok (c := ctx) (value := .bvv 32 8) (N := Card.constKnown 8#32) (B := [("RXDCTL", "ENABLE", true)]) setting hg hl
    (fun old _ _ _ => Card.constKnown_sat 8#32 _ old)
    (Card.knows_cons setting hg (j := 25) (by decide +kernel) ⟨_, rfl, fun ρ => by simp [Val.den]; decide⟩ Card.knows_nil) (by decide +kernel)
  refine ⟨d', ?_, rfl, rfl, Card.get_reg (by decide +kernel), fun _ => 0, by simp [Val.den]⟩
  have := hl.found
  simp only [writeAt] at h1
  rw [show ctx.regs = registers from rfl, this] at h1
  exact h1

/-- The same of a queue to send, whose old tail is not known. -/
example : ∃ d', let d := dev "TDT" 5 (.bvv 32 3) "TXDCTL" 5 (.bvv 32 0x2000000)
    write ctx triv actions d "TDT" 5 (.bvv 32 8) = some d' ∧ d.regs "TXDCTL" 5 = some (.bvv 32 0x2000000) ∧
    fetch ctx.fresh d.useInit d.regs "TDT" 5 (Card.reg "TDT") = some (.bvv 32 3, d.regs) ∧
    registers.get "TDT" = some (Card.reg "TDT") ∧ ∃ ρ, (Val.bvv 32 3).den ρ % 2 ^ 16 ≠ (Val.bvv 32 8).den ρ % 2 ^ 16 := by
  have hl : Card.Locate (0x6018 + 5 * 0x40) "TDT" 5 := Card.locate (by decide +kernel) ⟨⟨0, 0x6018, 0x40, 127⟩, by decide +kernel, by decide, by decide, rfl⟩
  have hg : Card.Good (dev "TDT" 5 (.bvv 32 3) "TXDCTL" 5 (.bvv 32 0x2000000)) := dev_good rfl rfl
  obtain ⟨d', h1, -⟩ := Card.write_plain_ok (c := ctx) (value := .bvv 32 8) (N := ⟨0, 0, 0xFFFF0000, 0⟩) (B := [("TXDCTL", "ENABLE", true)]) setting hg hl
    (fun old st _ hf => by
      rw [Card.fetch_stored (v := .bvv 32 3) (by rw [Card.slot_index (by decide +kernel)]; rfl)] at hf
      cases hf
      refine ⟨rfl, fun j ρ h => by simp at h, fun j ρ h => by simp at h, fun j ρ h => ?_, fun j ρ _ h => by simp at h⟩
      rw [show (Val.bvv 32 8).den ρ = 8 from rfl, show (Val.bvv 32 3).den ρ = 3 from rfl, Card.high_zero (by decide) h, Card.high_zero (by decide) h])
    (Card.knows_cons setting hg (j := 25) (by decide +kernel) ⟨_, rfl, fun ρ => by simp [Val.den]; decide⟩ Card.knows_nil) (by decide +kernel)
  refine ⟨d', ?_, rfl, rfl, Card.get_reg (by decide +kernel), fun _ => 0, by simp [Val.den]⟩
  have := hl.found
  simp only [writeAt] at h1
  rw [show ctx.regs = registers from rfl, this] at h1
  exact h1

/-- A device that does not receive starts to accept all unicast packets. -/
example : ∃ d', let d := dev "FCTRL" 0 (.bvv 32 0) "RXCTRL" 0 (.bvv 32 0)
    write ctx triv actions d "FCTRL" 0 (.bvv 32 0x200) = some d' ∧ d.regs "RXCTRL" 0 = some (.bvv 32 0) ∧
    fetch ctx.fresh d.useInit d.regs "FCTRL" 0 (Card.reg "FCTRL") = some (.bvv 32 0, d.regs) ∧
    registers.get "FCTRL" = some (Card.reg "FCTRL") ∧ ∃ ρ, ((Val.bvv 32 0).den ρ).testBit 9 ≠ ((Val.bvv 32 0x200).den ρ).testBit 9 := by
  have hl : Card.Locate 0x5080 "FCTRL" 0 := Card.one _ _ (by decide +kernel)
  have hg : Card.Good (dev "FCTRL" 0 (.bvv 32 0) "RXCTRL" 0 (.bvv 32 0)) := dev_good rfl rfl
  obtain ⟨d', h1, -⟩ := Card.write_plain_ok (c := ctx) (value := .bvv 32 0x200) (N := ⟨0, 0x200, 0xFFFFFDFF, 0⟩) (B := [("RXCTRL", "RXEN", false)]) setting hg hl
    (fun old st _ hf => by
      rw [Card.fetch_stored (v := .bvv 32 0) (by rw [Card.slot_zero]; rfl)] at hf
      cases hf
      have e : ∀ ρ, (Val.bvv 32 0x200).den ρ = 0x200 := fun _ => rfl
      have e' : ∀ ρ, (Val.bvv 32 0).den ρ = 0 := fun _ => rfl
      refine ⟨rfl, fun j ρ h => by simp at h, fun j ρ h => by rw [e]; exact h, fun j ρ h => ?_, fun j ρ _ h => by simp at h⟩
      rw [e, e', Nat.zero_testBit]
      by_cases hj : j < 32
      · have : ∀ j < 32, Nat.testBit 0xFFFFFDFF j = true → Nat.testBit 0x200 j = false := by decide
        exact this j hj h
      · exact Nat.testBit_lt_two_pow (Nat.lt_of_lt_of_le (by decide) (Nat.pow_le_pow_right (by decide : 0 < 2) (by omega : 32 ≤ j))))
    (Card.knows_cons setting hg (j := 0) (by decide +kernel) ⟨_, rfl, fun ρ => by simp [Val.den]⟩ Card.knows_nil) (by decide +kernel)
  refine ⟨d', ?_, rfl, rfl, Card.get_reg (by decide +kernel), fun _ => 0, by simp [Val.den]; decide⟩
  have := hl.found
  simp only [writeAt] at h1
  rw [show ctx.regs = registers from rfl, this] at h1
  exact h1

/-- Of `C67_unnamed`: no action is about the priority flow control of a receiver, MFLCN.RPFCE; setting it raises. -/
example : ∃ f, let d := dev "MFLCN" 0 (.bvv 32 0) "RXCTRL" 0 (.bvv 32 0)
    registers.get "MFLCN" = some (Card.reg "MFLCN") ∧ f ∈ (Card.reg "MFLCN").fields ∧ f.access ≠ .iw ∧
    (∀ a ∈ actions, ∀ t, a.act ≠ .write "MFLCN" f.name t ∧ a.act ≠ .set "MFLCN" f.name ∧ a.act ≠ .clear "MFLCN" f.name) ∧
    fetch ctx.fresh d.useInit d.regs "MFLCN" 0 (Card.reg "MFLCN") = some (.bvv 32 0, d.regs) ∧
    ∃ ρ, content f (.bvv 32 0) ρ ≠ content f (.bvv 32 4) ρ := by
  have hf : ∃ f ∈ (Card.reg "MFLCN").fields, f.name = "RPFCE" ∧ f.start = 2 ∧ f.stop = 2 ∧ f.access ≠ .iw := (Card.hasField_spec (by decide +kernel)).2
  obtain ⟨f, h1, h2, h3, h4, h5⟩ := hf
  have hno : (actionSpecs.all fun a => !(a.kind.toAct.register == "MFLCN" && Card.actField a.kind.toAct == "RPFCE")) = true := by decide +kernel
  refine ⟨f, Card.get_reg (by decide +kernel), h1, h5, ?_, rfl, fun _ => 0, ?_⟩
  · intro a ha t
    obtain ⟨s, hs, rfl⟩ := List.mem_map.1 ha
    have := List.all_eq_true.1 hno s hs
    change s.kind.toAct ≠ _ ∧ s.kind.toAct ≠ _ ∧ s.kind.toAct ≠ _
    rw [h2]
    refine ⟨fun h => ?_, fun h => ?_, fun h => ?_⟩ <;> (rw [h] at this; simp [Act.register, Card.actField] at this)
  · rw [content, content, h3, h4]; decide

/-- Of `C67_split_refused`: to split the headers of TCP. -/
example : ∃ f, let d := dev "PSRTYPE" 0 (.bvv 32 0) "RXCTRL" 0 (.bvv 32 0)
    registers.get "PSRTYPE" = some (Card.reg "PSRTYPE") ∧ f ∈ (Card.reg "PSRTYPE").fields ∧ f.name = "PRS_type4" ∧
    fetch ctx.fresh d.useInit d.regs "PSRTYPE" 0 (Card.reg "PSRTYPE") = some (.bvv 32 0, d.regs) ∧
    ∃ ρ, content f (.bvv 32 0) ρ ≠ content f (.bvv 32 0x10) ρ := by
  obtain ⟨f, h1, h2, h3, h4, -⟩ := (Card.hasField_spec (n := "PSRTYPE") (g := "PRS_type4") (a := 4) (b := 4) (by decide +kernel)).2
  exact ⟨f, Card.get_reg (by decide +kernel), h1, h2, rfl, fun _ => 0, by rw [content, content, h3, h4]; decide⟩

/-- Of `C67_type_refused`: descriptors with advanced features, 001b, as the comments allow. -/
example : let d := dev "SRRCTL" 0 (.bvv 32 0) "RXCTRL" 0 (.bvv 32 0)
    registers.get "SRRCTL" = some (Card.reg "SRRCTL") ∧
    fetch ctx.fresh d.useInit d.regs "SRRCTL" 0 (Card.reg "SRRCTL") = some (.bvv 32 0, d.regs) ∧
    ∃ ρ, (Val.bvv 32 0).den ρ / 2 ^ 25 % 2 ^ 3 ≠ (Val.bvv 32 0x2000000).den ρ / 2 ^ 25 % 2 ^ 3 :=
  ⟨Card.get_reg (by decide +kernel), rfl, fun _ => 0, by simp [Val.den]⟩

/-- Of `C67_length_refused`: a ring of 24 descriptors. -/
example : let d := dev "RDLEN" 0 (.bvv 32 0) "RXCTRL" 0 (.bvv 32 0)
    registers.get "RDLEN" = some (Card.reg "RDLEN") ∧
    fetch ctx.fresh d.useInit d.regs "RDLEN" 0 (Card.reg "RDLEN") = some (.bvv 32 0, d.regs) ∧
    ∃ ρ, (Val.bvv 32 0).den ρ % 2 ^ 20 ≠ (Val.bvv 32 (24 * 16)).den ρ % 2 ^ 20 ∧ (Val.bvv 32 (24 * 16)).den ρ % 256 = 128 :=
  ⟨Card.get_reg (by decide +kernel), rfl, fun _ => 0, by simp [Val.den]⟩

/-- Of `C67_rash` and `C67_abrupt`: no constraints. -/
example : Card.Fine (Card.rashOps.map fun o => (o, fun _ => True)) ∧ (Card.rashOps.map fun o => (o, fun _ : Env => True)).map (·.1) = Card.rashOps ∧
    Card.Fine (Card.abruptOps.map fun o => (o, fun _ => True)) ∧ (Card.abruptOps.map fun o => (o, fun _ : Env => True)).map (·.1) = Card.abruptOps := by
  have key : ∀ l : List Op, (∀ o ∈ l, CardExample.other o = true) → Card.Fine (l.map fun o => (o, fun _ => True)) := by
    intro l hl x hx
    obtain ⟨o, ho, rfl⟩ := List.mem_map.1 hx
    exact ⟨⟨fun _ => 0, trivial⟩, fun q hq v e => absurd e (CardExample.other_ne (hl o ho) hq)⟩
  refine ⟨key _ (by rw [← List.all_eq_true]; decide +kernel), ?_, key _ (by rw [← List.all_eq_true]; decide +kernel), ?_⟩ <;>
    (rw [List.map_map]; exact List.map_id _)

end CardRulesExample

end Verif.Props
