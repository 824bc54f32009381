/-
C67: the tool's description of the network card, spec_reg.py and spec_act.py, admits what the driver does.
-/
import Verif.Props.CardAccess

set_option autoImplicit false

namespace Verif.Props
open Verif.Tool Verif.Tool.Registers Verif.Tool.CardSpec RegField RegWrite

namespace Card
open Verif.IxgbeDevice Verif.IxgbeRegs

/-! ### More accesses -/

section Ops
variable {c : Ctx} {trivially : Val → Val → Bool} {d : Device} {a i : Nat} {name : String}

theorem post_reg (hc : Setting c trivially) (hd : Good d) {n g : String} {j : Nat} (hg : bitAt n g j = true) (i : Nat) (b : Bool) :
    ∃ d', changeField c d n g i b.toNat = some d' ∧ Step d [(n, (reg n).slot i)] d' ∧ BitIs d' n ((reg n).slot i) j b ∧ d'.pci = d.pci := by
  unfold bitAt at hg
  cases hf : (reg n).field g with
  | none => rw [hf] at hg; cases hg
  | some f =>
    rw [hf] at hg
    simp only [Bool.and_eq_true, beq_iff_eq, decide_eq_true_eq] at hg
    obtain ⟨⟨⟨h1, h2⟩, h3⟩, h4⟩ := hg
    have hr := get_reg h4
    have h32 := (registers_readable _ (get_mem hr)).1
    obtain ⟨v, st, e1, e2, -, -, -⟩ := fetch_reg (fresh := c.fresh) hd hr i
    obtain ⟨d', w, g1, g2, g3, g4, -, g6, g7⟩ := C51_change c d n g i b.toNat (reg n) f v st (by rw [hc.regs]; exact hr) hf e1 (by rw [e2, h32]) ⟨by omega, by rw [h32]; omega⟩
      (by rw [h1, h2, Nat.sub_self]; cases b <;> decide)
    refine ⟨d', g1, ⟨⟨?_, ?_, ?_⟩, ?_, ?_⟩, ⟨w, g2, fun ρ => ?_⟩, by rw [g7]⟩
    · intro m k x hx
      by_cases e : m = n ∧ k = (reg n).slot i
      · obtain ⟨rfl, rfl⟩ := e
        rw [g2] at hx; cases hx
        rw [g3, h32]
      · rw [g6 m k e] at hx; exact hd.regs m k x hx
    · rw [g7]; exact hd.pci
    · rw [g7]; exact hd.latest
    · rw [g7]
    · intro m k hm
      exact g6 m k (by simpa using hm)
    · rw [g4 ρ j (by omega) (by omega), h1, Nat.sub_self]
      cases b <;> rfl

/-- A modification whose only action has an effect on the register itself. -/
theorem modify_self (hc : Setting c trivially) (hd : Good d) (ha : Locate a name i) {m n : BitVec 32} {B : Bits} {action g : String} {j : Nat} {s : ActSpec}
    {b : Bool} (hB : Knows c i d.regs B) (hp : singleOk name (modKnown m n) B j action = true)
    (hs : (actionSpecs.find? fun x => x.name == action) = some s) (hpost : s.postcond = [(name, g, b.toNat)]) (hg : bitAt name g j = true)
    (hr : (action == "Initiate Software Reset") = false) (hm : m.getLsbD j = true) (hn : n.getLsbD j = b) :
    ∃ d', step c trivially d (.modify a m n) = some d' ∧ Step d [(name, (reg name).slot i)] d' ∧ BitIs d' name ((reg name).slot i) j b := by
  obtain ⟨old, st, -, hw, d1, hd1, -, hv, hfr, h⟩ := modify_single_ok hc hd ha hB hp hs
  rcases h with ⟨-, hu, h⟩ | ⟨hu, h⟩
  · refine ⟨d1, h, ⟨hd1, hu, fun n k hn => hfr n k (by simpa using hn)⟩, ⟨_, hv, fun ρ => ?_⟩⟩
    rw [modified_bit m n hw, hm, hn]; simp
  · obtain ⟨d', g1, g2, g3, -⟩ := post_reg hc hd1 hg i b
    refine ⟨d', ?_, ⟨g2.good, ?_, ?_⟩, g3⟩
    · rw [h, hpost, applyPost, g1]; rfl
    · rw [g2.useInit, hu, hr, Bool.or_false]
    · intro n k hn
      rw [g2.frame n k hn]
      exact hfr n k (by simpa using hn)

theorem bit_and (x j : Nat) (hj : j < 32) : (BitVec.ofNat 32 x &&& bit j == 0#32) = !x.testBit j := by
  rw [Bool.eq_iff_iff]
  simp only [beq_iff_eq, Bool.not_eq_true']
  constructor
  · intro h
    have := congrArg (fun y => BitVec.getLsbD y j) h
    simp only [BitVec.getLsbD_and, BitVec.getLsbD_ofNat, bit, BitVec.getLsbD_shiftLeft] at this
    simpa [hj] using this
  · intro h
    apply BitVec.eq_of_getLsbD_eq
    intro k hk
    simp only [BitVec.getLsbD_and, BitVec.getLsbD_ofNat, bit, BitVec.getLsbD_shiftLeft]
    by_cases e : k = j
    · subst e; simp [h]
    · by_cases e' : k < j
      · simp [e']
      · have : Nat.testBit 1 (k - j) = false := Nat.testBit_lt_two_pow (Nat.one_lt_two_pow (by omega))
        simp [this]

/-- A field of one bit that is stored. -/
theorem expect_bit (hc : Setting c trivially) (ha : Locate a name i) {j : Nat} (hj : j < 32) {b : Bool}
    (hb : BitIs d name ((reg name).slot i) j b) : step c trivially d (.expect a (bit j) (!b)) = some d := by
  obtain ⟨v, h1, h2⟩ := hb
  have hf : fetch c.fresh d.useInit d.regs name i (reg name) = some (v, d.regs) := fetch_stored h1
  have hr : CardSpec.read c d a = some (v, d) := by
    simp only [CardSpec.read, hc.regs, ha.found, ha.known, hf, Option.map_some]
  simp only [step, hr]
  rw [if_pos]
  have e : (fun ρ => (BitVec.ofNat 32 (v.den ρ) &&& bit j == 0#32) = !b) = fun _ => True := by
    funext ρ
    rw [bit_and _ j hj, h2]
    simp
  rw [e, definitely_const hc.sat]
  rfl

/-- A field of a register that is read for the first time after the reset. -/
theorem expect_new (hc : Setting c trivially) (hd : Good d) (ha : Locate a name i) (hu : d.useInit = true)
    (hn : d.regs name ((reg name).slot i) = none) {k : Nat} (hk : initValue 0 (reg name).fields = some k) {f : BitVec 32} {b : Bool}
    (hb : (BitVec.ofNat 32 (k % 2 ^ 32) &&& f == 0#32) = b) :
    ∃ d', step c trivially d (.expect a f b) = some d' ∧ Step d [(name, (reg name).slot i)] d' ∧
      d'.regs name ((reg name).slot i) = some (.bvv 32 k) := by
  obtain ⟨v, d', h1, h2, h3, -, -, -, hf⟩ := read_ok hc hd ha
  obtain rfl := (read_new ha hf hn).1 hu k hk
  refine ⟨d', ?_, h2, h3⟩
  simp only [step, h1]
  rw [if_pos]
  have e : (fun ρ => (BitVec.ofNat 32 ((Val.bvv 32 k).den ρ) &&& f == 0#32) = b) = fun _ => True := by
    funext ρ
    rw [show (Val.bvv 32 k).den ρ = k % 2 ^ 32 from rfl, hb]
    simp
  rw [e, definitely_const hc.sat]
  rfl

theorem read_step (hc : Setting c trivially) (hd : Good d) (ha : Locate a name i) :
    ∃ d', step c trivially d (.read a) = some d' ∧ Step d [(name, (reg name).slot i)] d' := by
  obtain ⟨v, d', h1, h2, -⟩ := read_ok hc hd ha
  exact ⟨d', by simp only [step, h1, Option.map_some], h2⟩

end Ops

/-! ### Sequences -/

/-- The constraints on the paths: they can be met, and the address for the head of a ring that is being written is aligned. -/
def Fine (l : List (Op × (Env → Prop))) : Prop :=
  ∀ x ∈ l, (∃ ρ, x.2 ρ) ∧ ∀ q < 128, ∀ v, x.1 = .write (IxgbeSetup.TDWBAL q) v → ∀ ρ, x.2 ρ → v.den ρ % 16 = 1

structure Base (c : Ctx) (trivially : Val → Val → Bool) : Prop where
  regs : c.regs = registers
  pci : c.pci = pciRegs
  faithful : CardFaithful trivially

theorem Base.setting {c : Ctx} {trivially : Val → Val → Bool} (h : Base c trivially) {con : Env → Prop} (hs : ∃ ρ, con ρ) :
    Setting { c with constraints := con } trivially := ⟨h.regs, h.pci, hs, h.faithful⟩

/-- All runs of the accesses succeed, and end as `P` says. -/
def Exec (c : Ctx) (trivially : Val → Val → Bool) (ops : List Op) (d : Device) (P : Device → Prop) : Prop :=
  ∀ l : List (Op × (Env → Prop)), l.map (·.1) = ops → Fine l → ∃ d', run c trivially d l = some d' ∧ P d'

section Exec
variable {c : Ctx} {trivially : Val → Val → Bool} {d : Device} {P Q : Device → Prop}

theorem Exec.nil (h : P d) : Exec c trivially [] d P := by
  intro l hl _
  rw [List.map_eq_nil_iff] at hl
  subst hl
  exact ⟨d, rfl, h⟩

theorem Exec.cons {o : Op} {ops : List Op}
    (h : ∀ con : Env → Prop, (∃ ρ, con ρ) → (∀ q < 128, ∀ v, o = .write (IxgbeSetup.TDWBAL q) v → ∀ ρ, con ρ → v.den ρ % 16 = 1) →
      ∃ d', step { c with constraints := con } trivially d o = some d' ∧ Exec c trivially ops d' P) : Exec c trivially (o :: ops) d P := by
  intro l hl hf
  cases l with
  | nil => simp at hl
  | cons x l =>
    obtain ⟨o', con⟩ := x
    simp only [List.map_cons, List.cons.injEq] at hl
    obtain ⟨rfl, rfl⟩ := hl
    obtain ⟨h1, h2⟩ := hf _ List.mem_cons_self
    obtain ⟨d', h3, h4⟩ := h con h1 h2
    obtain ⟨d'', h5, h6⟩ := h4 l rfl fun x hx => hf x (List.mem_cons_of_mem _ hx)
    exact ⟨d'', by rw [run, h3]; exact h5, h6⟩

theorem run_append (c : Ctx) (trivially : Val → Val → Bool) : ∀ (l l' : List (Op × (Env → Prop))) (d : Device),
    run c trivially d (l ++ l') = match run c trivially d l with | none => none | some d => run c trivially d l'
  | [], _, _ => rfl
  | (o, con) :: l, l', d => by
    rw [List.cons_append, run, run]
    cases step { c with constraints := con } trivially d o with
    | none => rfl
    | some d' => exact run_append c trivially l l' d'

theorem Exec.append {ops ops' : List Op} (h : Exec c trivially ops d P) (h' : ∀ d', P d' → Exec c trivially ops' d' Q) :
    Exec c trivially (ops ++ ops') d Q := by
  intro l hl hf
  obtain ⟨l1, l2, rfl, h1, h2⟩ := List.map_eq_append_iff.1 hl
  obtain ⟨d1, e1, p1⟩ := h l1 h1 fun x hx => hf x (List.mem_append_left _ hx)
  obtain ⟨d2, e2, p2⟩ := h' d1 p1 l2 h2 fun x hx => hf x (List.mem_append_right _ hx)
  exact ⟨d2, by rw [run_append, e1]; exact e2, p2⟩

theorem Exec.imp {ops : List Op} (h : Exec c trivially ops d P) (hi : ∀ d', P d' → Q d') : Exec c trivially ops d Q := by
  intro l hl hf
  obtain ⟨d', h1, h2⟩ := h l hl hf
  exact ⟨d', h1, hi d' h2⟩

/-- An access that succeeds at any time and only changes one register, or instances of it. -/
def Plain (o : Op) (name : String) : Prop := ∀ (c : Ctx) (trivially : Val → Val → Bool) (d : Device), Setting c trivially → Good d →
  ∃ d', step c trivially d o = some d' ∧ Good d' ∧ d'.useInit = d.useInit ∧ ∀ n, n ≠ name → d'.regs n = d.regs n

/-- What holds after accesses that only change registers in `names`. -/
structure Kept (names : List String) (d d' : Device) : Prop where
  good : Good d'
  useInit : d'.useInit = d.useInit
  frame : ∀ n, n ∉ names → d'.regs n = d.regs n

theorem Kept.bit {names : List String} {d d' : Device} (h : Kept names d d') {n : String} {k j : Nat} {b : Bool} (hb : BitIs d n k j b) (hn : n ∉ names) :
    BitIs d' n k j b := by
  obtain ⟨v, h1, h2⟩ := hb
  exact ⟨v, by rw [h.frame n hn, h1], h2⟩

theorem exec_plain (hb : Base c trivially) {names : List String} : ∀ (ops : List Op) (d : Device), Good d → (∀ o ∈ ops, ∃ n ∈ names, Plain o n) →
    Exec c trivially ops d (Kept names d)
  | [], d, hd, _ => Exec.nil ⟨hd, rfl, fun _ _ => rfl⟩
  | o :: ops, d, hd, h => by
    refine Exec.cons fun con hs _ => ?_
    obtain ⟨n, hn, hp⟩ := h o List.mem_cons_self
    obtain ⟨d', h1, h2, h3, h4⟩ := hp _ trivially d (hb.setting hs) hd
    refine ⟨d', h1, (exec_plain hb ops d' h2 fun o ho => h o (List.mem_cons_of_mem _ ho)).imp fun d'' hk => ?_⟩
    exact ⟨hk.good, hk.useInit.trans h3, fun m hm => (hk.frame m hm).trans (h4 m fun e => hm (e ▸ hn))⟩

end Exec

/-- The same, for one instance of the register. -/
def PlainAt (o : Op) (name : String) (k : Nat) : Prop := ∀ (c : Ctx) (trivially : Val → Val → Bool) (d : Device), Setting c trivially → Good d →
  ∃ d', step c trivially d o = some d' ∧ Step d [(name, k)] d'

theorem PlainAt.plain {o : Op} {name : String} {k : Nat} (h : PlainAt o name k) : Plain o name := by
  intro c t d hc hd
  obtain ⟨d', h1, h2⟩ := h c t d hc hd
  refine ⟨d', h1, h2.good, h2.useInit, fun n hn => ?_⟩
  funext j
  exact h2.frame n j (by simp [hn])

theorem exec_steps {c : Ctx} {trivially : Val → Val → Bool} (hb : Base c trivially) {S : List (String × Nat)} : ∀ (ops : List Op) (d : Device), Good d →
    (∀ o ∈ ops, ∃ n k, (n, k) ∈ S ∧ PlainAt o n k) → Exec c trivially ops d (Step d S)
  | [], d, hd, _ => Exec.nil ⟨hd, rfl, fun _ _ _ => rfl⟩
  | o :: ops, d, hd, h => by
    refine Exec.cons fun con hs _ => ?_
    obtain ⟨n', k', hn, hp⟩ := h o List.mem_cons_self
    obtain ⟨d', h1, h2⟩ := hp _ trivially d (hb.setting hs) hd
    refine ⟨d', h1, (exec_steps hb ops d' h2.good fun o ho => h o (List.mem_cons_of_mem _ ho)).imp fun d'' hk => ?_⟩
    exact ⟨hk.good, hk.useInit.trans h2.useInit, fun m k hm => (hk.frame m k hm).trans (h2.frame m k fun e => hm ((List.mem_singleton.1 e) ▸ hn))⟩

theorem at_modify {a i : Nat} {name : String} {m n : BitVec 32} (ha : Locate a name i) (hp : plainOk name (modKnown m n) [] = true) :
    PlainAt (.modify a m n) name ((reg name).slot i) := fun _ _ _ hc hd => by
  obtain ⟨d', _, h1, h2, -⟩ := modify_plain_ok hc hd ha knows_nil hp
  exact ⟨d', h1, h2⟩

theorem at_write {a i : Nat} {name : String} {v : Val} {N : Known} (ha : Locate a name i)
    (hN : ∀ con old, N.Sat con old v) (hp : plainOk name N [] = true) :
    PlainAt (.write a v) name ((reg name).slot i) := fun _ _ _ hc hd => by
  obtain ⟨d', h1, h2, -⟩ := write_plain_ok hc hd ha (fun old _ _ _ => hN _ old) knows_nil hp
  exact ⟨d', h1, h2⟩

theorem at_read {a i : Nat} {name : String} (ha : Locate a name i) : PlainAt (.read a) name ((reg name).slot i) := fun _ _ _ hc hd => by
  obtain ⟨d', h1, h2⟩ := read_step hc hd ha
  exact ⟨d', h1, h2⟩

theorem plain_modify {a i : Nat} {name : String} {m n : BitVec 32} (ha : Locate a name i) (hp : plainOk name (modKnown m n) [] = true) :
    Plain (.modify a m n) name := (at_modify ha hp).plain

theorem plain_write {a i : Nat} {name : String} {v : Val} {N : Known} (ha : Locate a name i)
    (hN : ∀ con old, N.Sat con old v) (hp : plainOk name N [] = true) :
    Plain (.write a v) name := (at_write ha hN hp).plain

theorem plain_read {a i : Nat} {name : String} (ha : Locate a name i) : Plain (.read a) name := (at_read ha).plain

/-- What is known of a constant. -/
def constKnown (v : BitVec 32) : Known := ⟨(~~~v).toNat, v.toNat, 0, 0⟩

theorem constKnown_sat (v : BitVec 32) (con : Env → Prop) (old : Val) : (constKnown v).Sat con old (const v) := by
  have key : ∀ ρ j, ((const v).den ρ).testBit j = v.getLsbD j := by
    intro ρ j
    change (v.toNat % 2 ^ 32).testBit j = _
    rw [Nat.mod_eq_of_lt v.isLt, BitVec.testBit_toNat]
  refine ⟨rfl, fun j ρ h => ?_, fun j ρ h => ?_, fun j ρ h => ?_, fun j ρ _ h => ?_⟩
  · rw [key]
    simp only [constKnown, BitVec.testBit_toNat, BitVec.getLsbD_not, Bool.and_eq_true, Bool.not_eq_true'] at h
    exact h.2
  · rw [key]
    simpa only [constKnown, BitVec.testBit_toNat] using h
  · simp [constKnown] at h
  · simp [constKnown] at h

/-- Nothing is known. -/
theorem noneKnown_sat (con : Env → Prop) (old : Val) (f : Env → Nat) : (⟨0, 0, 0, 0⟩ : Known).Sat con old (.sym 32 f) :=
  ⟨rfl, fun j ρ h => by simp at h, fun j ρ h => by simp at h, fun j ρ h => by simp at h, fun j ρ _ h => by simp at h⟩

theorem plain_const {a i : Nat} {name : String} {v : BitVec 32} (ha : Locate a name i) (hp : plainOk name (constKnown v) [] = true) :
    Plain (.write a (const v)) name := plain_write ha (constKnown_sat v) hp

theorem at_const {a i : Nat} {name : String} {v : BitVec 32} (ha : Locate a name i) (hp : plainOk name (constKnown v) [] = true) :
    PlainAt (.write a (const v)) name ((reg name).slot i) := at_write ha (constKnown_sat v) hp

theorem at_sym {a i : Nat} {name : String} {f : Env → Nat} (ha : Locate a name i) (hp : plainOk name ⟨0, 0, 0, 0⟩ [] = true) :
    PlainAt (.write a (.sym 32 f)) name ((reg name).slot i) := at_write ha (fun con old => noneKnown_sat con old f) hp

/-! ### Where the registers are -/

theorem at_one {name : String} {b : Nat} (h : (registers.get name).isSome = true) (hr : (reg name).addr = [(b, 0, 0)]) : Locate b name 0 :=
  locate h ⟨⟨0, b, 0, 0⟩, by rw [hr]; exact List.mem_cons_self, Nat.le_refl _, Nat.le_refl _, rfl⟩

theorem at_many {name : String} {b m l n a : Nat} (h : (registers.get name).isSome = true) (hr : (reg name).addr = [(b, m, l)]) (hn : n ≤ l)
    (ha : a = b + m * n) : Locate a name n :=
  locate h ⟨⟨0, b, m, l⟩, by rw [hr]; exact List.mem_cons_self, Nat.zero_le _, hn, by rw [ha, Nat.sub_zero, Nat.mul_comm]⟩

theorem at_first {name : String} {b m l a : Nat} {x : Nat × Nat × Nat} (h : (registers.get name).isSome = true) (hr : (reg name).addr = [(b, m, l), x])
    (ha : a = b) : Locate a name 0 :=
  locate h ⟨⟨0, b, m, l⟩, by rw [hr]; exact List.mem_cons_self, Nat.le_refl _, Nat.zero_le _, by simp [ha]⟩

theorem at_rxdctl {q : Nat} (hq : q < 128) : Locate (RXDCTL q) "RXDCTL" q := by
  refine locate (by decide +kernel) ?_
  have hr : (reg "RXDCTL").addr = [(0x1028, 0x40, 63), (0xd028, 0x40, 127)] := by decide +kernel
  unfold RXDCTL
  split
  · exact ⟨⟨0, 0x1028, 0x40, 63⟩, by rw [hr]; exact List.mem_cons_self, Nat.zero_le _, by assumption, by change 0x1028 + 0x40 * q = 0x1028 + (q - 0) * 0x40; omega⟩
  · exact ⟨⟨64, 0xd028, 0x40, 127⟩, by rw [hr]; exact List.mem_cons_of_mem _ List.mem_cons_self, by change 64 ≤ q; omega, by change q ≤ 127; omega,
      by change 0xd028 + 0x40 * (q - 64) = 0xd028 + (q - 64) * 0x40; omega⟩

/-! ### The PCI configuration -/

theorem pci_readable : ∀ x ∈ pciRegs, readable x.2 = true := by decide +kernel

theorem pci_distinct : pciRegs.Pairwise fun x y => x.1 ≠ y.1 := by decide +kernel

theorem distinct_unique {t : Table} (hp : t.Pairwise fun x y => x.1 ≠ y.1) {n : String} {r r' : Reg} (h : (n, r) ∈ t) (h' : (n, r') ∈ t) : r = r' := by
  induction hp with
  | nil => cases h
  | cons hh _ ih =>
    rcases List.mem_cons.1 h with e | h <;> rcases List.mem_cons.1 h' with e' | h'
    · rw [← e] at e'; exact ((Prod.mk.inj e').2).symm
    · exact absurd (by rw [← e]) (hh _ h')
    · exact absurd (by rw [← e']) (hh _ h)
    · exact ih h h'

theorem pci_unique {n : String} {r r' : Reg} (h : (n, r) ∈ pciRegs) (h' : (n, r') ∈ pciRegs) : r = r' := distinct_unique pci_distinct h h'

theorem pci_fetch {fresh : String → Nat → Nat} {u : Bool} {d : Device} (hd : Good d) {name : String} {r : Reg} (hr : (name, r) ∈ pciRegs) (i : Nat) :
    ∃ v st, fetch fresh u d.pci name i r = some (v, st) ∧ (name ≠ "BAR0" → name ≠ "BAR1" → v.width = r.length) ∧ st name (r.slot i) = some v ∧
      Good { d with pci := st } := by
  cases hs : d.pci name (r.slot i) with
  | some v => exact ⟨v, d.pci, fetch_stored hs, fun h1 h2 => hd.pci _ _ _ _ hr h1 h2 hs, hs, hd⟩
  | none =>
    obtain ⟨v, h1, h2, -⟩ := fetch_new (fresh := fresh) (u := u) (i := i) (pci_readable _ hr) hs
    refine ⟨v, _, h1, fun _ _ => h2, by simp [update], ⟨hd.regs, ?_, hd.latest⟩⟩
    intro n r' k w hn e1 e2 hw
    simp only [update] at hw
    split at hw
    · rename_i e
      cases hw
      obtain ⟨rfl, -⟩ := e
      rw [pci_unique hn hr, h2]
    · exact hd.pci _ _ _ _ hn e1 e2 hw


section Pci
variable {c : Ctx} {trivially : Val → Val → Bool} {d : Device} {a : Nat}

theorem getPci_mem {name : String} {r : Reg} (h : getPciReg pciRegs a = some (name, r)) : (name, r) ∈ pciRegs := List.mem_of_find?_eq_some h

theorem pciRead_ok (hc : Setting c trivially) (hd : Good d) {name : String} {r : Reg} (h : getPciReg pciRegs a = some (name, r)) :
    ∃ v d', CardSpec.pciRead c d a = some (v, d') ∧ Good d' ∧ d'.regs = d.regs ∧ d'.useInit = d.useInit ∧
      (name ≠ "BAR0" → name ≠ "BAR1" → v.width = r.length) ∧ d'.pci name (r.slot 0) = some v := by
  obtain ⟨v, st, h1, h2, h3, h4⟩ := pci_fetch (fresh := c.freshPci) (u := true) hd (getPci_mem h) 0
  exact ⟨v, { d with pci := st }, by simp only [CardSpec.pciRead, hc.pci, h, h1, Option.map_some], h4, rfl, rfl, h2, h3⟩

/-- The check of a write to the PCI configuration. -/
def pciOk (a : Nat) (N : Known) : Bool :=
  match getPciReg pciRegs a with
  | some (name, r) => name != "BAR0" && name != "BAR1" && r.length == 32 && r.access != .ro &&
    match absFields name N [] actionSpecs r.fields with
    | some res => res.all fun x => x.2.all harmless
    | none => false
  | none => false

theorem pciModify_ok (hc : Setting c trivially) (hd : Good d) {m n : BitVec 32} (hp : pciOk a (modKnown m n) = true) :
    ∃ d', step c trivially d (.pciModify a m n) = some d' ∧ Good d' ∧ d'.regs = d.regs ∧ d'.useInit = d.useInit := by
  unfold pciOk at hp
  cases hg : getPciReg pciRegs a with
  | none => rw [hg] at hp; cases hp
  | some x =>
    obtain ⟨name, r⟩ := x
    rw [hg] at hp
    simp only [Bool.and_eq_true, bne_iff_ne, beq_iff_eq] at hp
    obtain ⟨⟨⟨⟨h1, h2⟩, h3⟩, h4⟩, h5⟩ := hp
    cases hres : absFields name (modKnown m n) [] actionSpecs r.fields with
    | none => rw [hres] at h5; cases h5
    | some res =>
      rw [hres] at h5
      simp only [List.all_eq_true] at h5
      obtain ⟨v, d0, e1, hd0, e2, e3, e4, e5⟩ := pciRead_ok hc hd hg
      have hv := (e4 h1 h2).trans h3
      have hf : fetch c.freshPci true d0.pci name 0 r = some (v, d0.pci) := fetch_stored e5
      obtain ⟨l, l', d1, L, g1, g2, g3, g4, g5, -⟩ := verify_ok (d := d0) (i := 0) hc.sat hc.faithful h4 hv (modKnown_sat c.constraints m n hv) knows_nil hres
      have hL : ∀ a ∈ L, harmless a = true := fun a ha => by
        obtain ⟨x, hx, hax⟩ := g5 a ha
        exact h5 x hx a hax
      have hreset : L.contains "Initiate Software Reset" = false := by
        rw [← Bool.not_eq_true]
        intro h
        have := hL _ (List.contains_iff_mem.1 h)
        simp [harmless] at this
      refine ⟨{ d1 with pci := update d1.pci name 0 r (modified m n v) }, ?_, ⟨?_, ?_, ?_⟩, ?_, ?_⟩
      · simp only [step, e1, CardSpec.pciWrite, hc.pci, hg, hf, g1, g2, g3]
      · change ∀ n i v, d1.regs n i = some v → _
        rw [g4.regs]; exact hd0.regs
      · intro n' r' k w hn q1 q2 hw
        simp only [update] at hw
        split at hw
        · rename_i e
          cases hw
          obtain ⟨rfl, -⟩ := e
          rw [pci_unique hn (getPci_mem hg), modified_width, hv, h3]
        · rw [g4.pci] at hw
          exact hd0.pci _ _ _ _ hn q1 q2 hw
      · intro a ha
        change d1.latest = some a at ha
        rw [g4.latest] at ha
        cases hl : L.getLast? with
        | none => rw [hl] at ha; exact hd0.latest a ha
        | some b =>
          rw [hl] at ha
          cases ha
          exact hL _ (List.mem_of_getLast? hl)
      · exact g4.regs.trans e2
      · change d1.useInit = _
        rw [g4.useInit, hreset, Bool.or_false, e3]

theorem exec_pci (hb : Base c trivially) : ∀ (ops : List Op) (d : Device), Good d →
    (∀ o ∈ ops, (∃ a, o = .pciRead a ∧ (getPciReg pciRegs a).isSome = true) ∨ ∃ a m n, o = .pciModify a m n ∧ pciOk a (modKnown m n) = true) →
    Exec c trivially ops d (Kept [] d)
  | [], d, hd, _ => Exec.nil ⟨hd, rfl, fun _ _ => rfl⟩
  | o :: ops, d, hd, h => by
    refine Exec.cons fun con hs _ => ?_
    have key : ∃ d', step { c with constraints := con } trivially d o = some d' ∧ Good d' ∧ d'.regs = d.regs ∧ d'.useInit = d.useInit := by
      rcases h o List.mem_cons_self with ⟨a, rfl, ha⟩ | ⟨a, m, n, rfl, ha⟩
      · obtain ⟨x, hx⟩ := Option.isSome_iff_exists.1 ha
        obtain ⟨v, d', h1, h2, h3, h4, -⟩ := pciRead_ok (hb.setting hs) hd hx
        exact ⟨d', by simp only [step, h1, Option.map_some], h2, h3, h4⟩
      · exact pciModify_ok (hb.setting hs) hd ha
    obtain ⟨d', h1, h2, h3, h4⟩ := key
    refine ⟨d', h1, (exec_pci hb ops d' h2 fun o ho => h o (List.mem_cons_of_mem _ ho)).imp fun d'' hk => ?_⟩
    exact ⟨hk.good, hk.useInit.trans h4, fun m hm => (hk.frame m hm).trans (by rw [h3])⟩

end Pci

/-! ### The driver -/

section Driver
variable {c : Ctx} {trivially : Val → Val → Bool} {d : Device}

theorem slot_zero (n : String) : (reg n).slot 0 = 0 := by unfold Reg.slot; split <;> rfl

theorem slot_index {n : String} (h : (reg n).indexed = true) (i : Nat) : (reg n).slot i = i := by unfold Reg.slot; rw [if_pos h]

/-- ixgbe.c:483-517. -/
theorem exec_pciOps (hb : Base c trivially) (hd : Good d) : Exec c trivially pciOps d (Kept [] d) := by
  refine exec_pci hb pciOps d hd ?_
  intro o ho
  simp only [pciOps, List.mem_cons, List.not_mem_nil, or_false] at ho
  rcases ho with rfl | rfl | rfl | rfl | rfl | rfl | rfl
  · exact .inl ⟨_, rfl, by decide +kernel⟩
  · exact .inl ⟨_, rfl, by decide +kernel⟩
  · exact .inr ⟨_, _, _, rfl, by decide +kernel⟩
  · exact .inr ⟨_, _, _, rfl, by decide +kernel⟩
  · exact .inr ⟨_, _, _, rfl, by decide +kernel⟩
  · exact .inl ⟨_, rfl, by decide +kernel⟩
  · exact .inl ⟨_, rfl, by decide +kernel⟩

def spec (a : String) : ActSpec := (actionSpecs.find? fun x => x.name == a).getD ⟨"", none, .set "" "", []⟩

theorem find_spec {a : String} (h : (actionSpecs.find? fun x => x.name == a).isSome = true) : (actionSpecs.find? fun x => x.name == a) = some (spec a) := by
  unfold spec
  cases hr : actionSpecs.find? fun x => x.name == a with
  | none => rw [hr] at h; cases h
  | some r => rfl

/-- ixgbe.c:540-550. -/
theorem exec_disable (hb : Base c trivially) {q : Nat} (hq : q < 128) (hd : Good d) :
    Exec c trivially (disableOps q) d (fun d' => Step d [("RXDCTL", q)] d' ∧ BitIs d' "RXDCTL" q 25 false) := by
  have hslot : (reg "RXDCTL").slot q = q := slot_index (by decide +kernel) q
  refine Exec.cons fun con hs _ => ?_
  obtain ⟨d', h1, h2, h3⟩ := modify_self (i := q) (g := "ENABLE") (b := false) (j := 25) (action := "Disable Rx Queues") (m := bit 25) (n := 0#32)
    (hb.setting hs) hd (at_rxdctl hq) knows_nil (by decide +kernel) (find_spec (by decide +kernel)) (by decide +kernel) (by decide +kernel) (by decide)
    (by decide) (by decide)
  refine ⟨d', h1, Exec.cons fun con hs _ => ⟨d', ?_, Exec.nil ?_⟩⟩
  · exact expect_bit (hb.setting hs) (at_rxdctl hq) (by decide) h3
  · rw [hslot] at h2 h3
    exact ⟨h2, h3⟩

/-- ixgbe.c:540-550, all queues. -/
theorem exec_disables (hb : Base c trivially) : ∀ (qs : List Nat) (d : Device), (∀ q ∈ qs, q < 128) → Good d →
    Exec c trivially (qs.flatMap disableOps) d (fun d' => Kept ["RXDCTL"] d d' ∧ (0 ∈ qs ∨ BitIs d "RXDCTL" 0 25 false → BitIs d' "RXDCTL" 0 25 false))
  | [], d, _, hd => Exec.nil ⟨⟨hd, rfl, fun _ _ => rfl⟩, by simp⟩
  | q :: qs, d, hq, hd => by
    rw [List.flatMap_cons]
    refine (exec_disable hb (hq q List.mem_cons_self) hd).append fun d1 ⟨h1, h2⟩ => ?_
    refine (exec_disables hb qs d1 (fun q' h => hq q' (List.mem_cons_of_mem _ h)) h1.good).imp fun d2 ⟨h3, h4⟩ => ⟨⟨h3.good, h3.useInit.trans h1.useInit, ?_⟩, ?_⟩
    · intro n hn
      rw [h3.frame n hn]
      funext k
      exact h1.frame n k (by simp only [List.mem_singleton] at hn ⊢; simp [hn])
    · intro h
      apply h4
      by_cases e : q = 0
      · subst e; exact .inr h2
      · rcases h with h | h
        · rw [List.mem_cons] at h
          exact .inl (h.resolve_left fun h => e h.symm)
        · exact .inr (h.frame h1 (by simp; omega))

theorem one (name : String) (b : Nat) (h : ((registers.get name).isSome && (reg name).addr == [(b, 0, 0)]) = true) : Locate b name 0 := by
  rw [Bool.and_eq_true, beq_iff_eq] at h
  exact at_one h.1 h.2

theorem at_ctrl : Locate CTRL "CTRL" 0 := one _ _ (by decide +kernel)

theorem post_pci (hc : Setting c trivially) (hd : Good d) : ∃ d', changeField c d "DEVICE_STATUS" "Transaction_Pending" 0 0 = some d' ∧
    Good d' ∧ d'.regs = d.regs ∧ d'.useInit = d.useInit := by
  have h0 : registers.get "DEVICE_STATUS" = none := by
    rw [← Option.isNone_iff_eq_none]; decide +kernel
  have hs : (pciRegs.get "DEVICE_STATUS").isSome = true := by decide +kernel
  obtain ⟨r, hr⟩ := Option.isSome_iff_exists.1 hs
  have hck : (match pciRegs.get "DEVICE_STATUS" with
    | some r => r.length == 16 && (match r.field "Transaction_Pending" with | some f => f.start == 5 && f.stop == 5 | none => false)
    | none => false) = true := by decide +kernel
  rw [hr] at hck
  simp only [Bool.and_eq_true, beq_iff_eq] at hck
  obtain ⟨hl, hck⟩ := hck
  cases hf : r.field "Transaction_Pending" with
  | none => rw [hf] at hck; cases hck
  | some f =>
    rw [hf] at hck
    simp only [Bool.and_eq_true, beq_iff_eq] at hck
    obtain ⟨h1, h2⟩ := hck
    obtain ⟨v, st, e1, e2, -, -⟩ := pci_fetch (fresh := c.freshPci) (u := d.useInit) hd (get_mem hr) 0
    obtain ⟨d', w, g1, g2, g3, -, -, g6, g7⟩ := C51_change_pci c d "DEVICE_STATUS" "Transaction_Pending" 0 0 r f v st (by rw [hc.regs]; exact h0)
      (by rw [hc.pci]; exact hr) hf e1 (e2 (by decide) (by decide)) ⟨by omega, by omega⟩ (Nat.two_pow_pos _)
    refine ⟨d', g1, ⟨by rw [g7]; exact hd.regs, ?_, by rw [g7]; exact hd.latest⟩, by rw [g7], by rw [g7]⟩
    intro n r' k x hn q1 q2 hx
    by_cases e : n = "DEVICE_STATUS" ∧ k = r.slot 0
    · obtain ⟨rfl, rfl⟩ := e
      rw [g2] at hx; cases hx
      rw [pci_unique hn (get_mem hr), g3]
    · rw [g6 n k e] at hx
      exact hd.pci _ _ _ _ hn q1 q2 hx

theorem post_cons {i v : Nat} {d d' : Device} {n f : String} {l : List (String × String × Nat)} (h : changeField c d n f i v = some d') :
    applyPost c i d ((n, f, v) :: l) = applyPost c i d' l := by
  simp only [applyPost, h]

/-- ixgbe.c:551-558. -/
theorem exec_stop (hb : Base c trivially) (hd : Good d) (hu : d.useInit = false) (hn : d.regs "CTRL" 0 = none) (hrx : BitIs d "RXDCTL" 0 25 false) :
    Exec c trivially stopOps d (fun d' => Kept ["CTRL", "STATUS"] d d' ∧
      ∃ v, d'.regs "CTRL" 0 = some v ∧ ∃ ρ, (v.den ρ).testBit 26 = false) := by
  refine Exec.cons fun con hs _ => ?_
  have hc := hb.setting hs
  obtain ⟨old, st, hf, hw, d1, hd1, hp, hv, hfr, h⟩ := modify_single_ok (i := 0) (B := [("RXDCTL", "ENABLE", false)]) (j := 2) (action := "Disable PCIe Master")
    (m := bit 2) (n := bit 2) hc hd at_ctrl
    (knows_cons hc hd (j := 25) (by decide +kernel) (by rw [slot_zero]; exact hrx) knows_nil) (by decide +kernel) (find_spec (by decide +kernel))
  rw [slot_zero] at hv hfr
  have hold := (read_new (c := { c with constraints := con }) at_ctrl hf (by rw [slot_zero]; exact hn)).2 hu
  have hpost : (spec "Disable PCIe Master").postcond = [("STATUS", "PCIe Master Enable Status", false.toNat), ("DEVICE_STATUS", "Transaction_Pending", 0)] := by decide +kernel
  rcases h with ⟨h, -⟩ | ⟨hu1, h⟩
  · exfalso
    have := h (fun _ => 0)
    rw [modified_bit _ _ hw, hold] at this
    revert this
    simp [Val.den, bit]
  · obtain ⟨d2, g1, g2, g3, -⟩ := post_reg hc hd1 (n := "STATUS") (g := "PCIe Master Enable Status") (j := 19) (by decide +kernel) 0 false
    obtain ⟨d3, k1, k2, k3, k4⟩ := post_pci hc g2.good
    rw [slot_zero] at g2 g3
    rw [hpost, post_cons g1, post_cons k1] at h
    have hst : BitIs d3 "STATUS" 0 19 false := by
      obtain ⟨v, e1, e2⟩ := g3
      exact ⟨v, by rw [k3]; exact e1, e2⟩
    refine ⟨d3, h, Exec.cons fun con hs _ => ⟨d3, ?_, Exec.nil ⟨⟨k2, ?_, ?_⟩, modified (bit 2) (bit 2) old, ?_, fun _ => 0, ?_⟩⟩⟩
    · exact expect_bit (hb.setting hs) (one "STATUS" STATUS (by decide +kernel)) (j := 19) (by decide) (by rw [slot_zero]; exact hst)
    · rw [k4, g2.useInit, hu1]
      rw [show ("Disable PCIe Master" == "Initiate Software Reset") = false by decide, Bool.or_false]
    · intro n hn
      simp only [List.mem_cons, List.not_mem_nil, or_false, not_or] at hn
      rw [k3]
      funext k
      rw [g2.frame n k (by simp [hn.2]), hfr n k (by simp [hn.1])]
    · rw [k3, g2.frame "CTRL" 0 (by simp), hv]
    · rw [modified_bit _ _ hw, hold]
      simp [Val.den, bit]

/-- ixgbe.c:589-596. -/
theorem exec_reset (hb : Base c trivially) (hd : Good d) (hn : ∃ v, d.regs "CTRL" 0 = some v ∧ ∃ ρ, (v.den ρ).testBit 26 = false) :
    Exec c trivially resetOps d (fun d' => Good d' ∧ d'.useInit = true ∧ (∀ n, n ∉ ["CTRL", "EEC", "RDRXCTL"] → d'.regs n = d.regs n) ∧
      BitIs d' "EEC" 0 9 true ∧ BitIs d' "RDRXCTL" 0 3 true) := by
  refine Exec.cons fun con hs _ => ?_
  have hc := hb.setting hs
  obtain ⟨v, hv0, ρ, hρ⟩ := hn
  obtain ⟨old, st, hf, hw, d1, hd1, hp, hv, hfr, h⟩ := modify_single_ok (i := 0) (B := []) (j := 26) (action := "Initiate Software Reset")
    (m := bit 26) (n := bit 26) hc hd at_ctrl knows_nil (by decide +kernel) (find_spec (by decide +kernel))
  have hf' := fetch_stored (fresh := c.fresh) (u := d.useInit) (i := 0) (r := reg "CTRL") (by rw [slot_zero]; exact hv0)
  rw [hf'] at hf
  cases hf
  rw [slot_zero] at hv hfr
  have hpost : (spec "Initiate Software Reset").postcond = [("CTRL", "RST", false.toNat), ("EEC", "Auto_RD", true.toNat), ("RDRXCTL", "DMAIDONE", true.toNat)] := by decide +kernel
  rcases h with ⟨h, -⟩ | ⟨hu1, h⟩
  · exfalso
    have := h ρ
    rw [modified_bit _ _ hw, hρ] at this
    revert this
    simp [bit]
  · obtain ⟨d2, g1, g2, -, -⟩ := post_reg hc hd1 (n := "CTRL") (g := "RST") (j := 26) (by decide +kernel) 0 false
    obtain ⟨d3, k1, k2, k3, -⟩ := post_reg hc g2.good (n := "EEC") (g := "Auto_RD") (j := 9) (by decide +kernel) 0 true
    obtain ⟨d4, l1, l2, l3, -⟩ := post_reg hc k2.good (n := "RDRXCTL") (g := "DMAIDONE") (j := 3) (by decide +kernel) 0 true
    rw [slot_zero] at g2 k2 k3 l2 l3
    have ha : applyPost { c with constraints := con } 0 d1 (spec "Initiate Software Reset").postcond = some d4 := by
      rw [hpost, post_cons g1, post_cons k1, post_cons l1]; rfl
    refine ⟨d4, h.trans ha, Exec.nil ⟨l2.good, ?_, ?_, k3.frame l2 (by simp), l3⟩⟩
    · rw [l2.useInit, k2.useInit, g2.useInit, hu1]
      simp
    · intro n hn
      simp only [List.mem_cons, List.not_mem_nil, or_false, not_or] at hn
      funext k
      rw [l2.frame n k (by simp [hn.2.2]), k2.frame n k (by simp [hn.2.1]), g2.frame n k (by simp [hn.1]), hfr n k (by simp [hn.1])]

theorem many (name : String) (b m l : Nat) {n a : Nat} (h : ((registers.get name).isSome && (reg name).addr == [(b, m, l)]) = true) (hn : n ≤ l)
    (ha : a = b + m * n) : Locate a name n := by
  rw [Bool.and_eq_true, beq_iff_eq] at h
  exact at_many h.1 h.2 hn ha

theorem zeroth (name : String) (b m l : Nat) {x : Nat × Nat × Nat} {a : Nat} (h : ((registers.get name).isSome && (reg name).addr == [(b, m, l), x]) = true)
    (ha : a = b) : Locate a name 0 := by
  rw [Bool.and_eq_true, beq_iff_eq] at h
  exact at_first h.1 h.2 ha

theorem Kept.refl {names : List String} (hd : Good d) : Kept names d d := ⟨hd, rfl, fun _ _ => rfl⟩

theorem Kept.trans {l1 l2 l3 : List String} {d1 d2 d3 : Device} (h : Kept l1 d1 d2) (h' : Kept l2 d2 d3) (h1 : ∀ n ∈ l1, n ∈ l3) (h2 : ∀ n ∈ l2, n ∈ l3) :
    Kept l3 d1 d3 :=
  ⟨h'.good, h'.useInit.trans h.useInit, fun n hn => (h'.frame n fun e => hn (h2 n e)).trans (h.frame n fun e => hn (h1 n e))⟩

theorem Kept.of_step {d' : Device} {n : String} {k : Nat} (h : Step d [(n, k)] d') : Kept [n] d d' :=
  ⟨h.good, h.useInit, fun m hm => by funext j; exact h.frame m j (by simp only [List.mem_singleton] at hm; simp [hm])⟩

/-- ixgbe.c:600-644. -/
theorem exec_wait (hb : Base c trivially) (hd : Good d) (hu : d.useInit = true) (hn : d.regs "FWSM" 0 = none) (he : BitIs d "EEC" 0 9 true)
    (hr : BitIs d "RDRXCTL" 0 3 true) : Exec c trivially waitOps d (Kept ["EIMC_0", "EIMC_1", "EIMC_2", "FCRTH", "EEC", "FWSM"] d) := by
  have hEEC : Locate EEC "EEC" 0 := one _ _ (by decide +kernel)
  change Exec c trivially ([_, _, _, _] ++ ([_] ++ ([_] ++ [_, _]))) d _
  refine (exec_plain hb (names := ["EIMC_0", "EIMC_1", "EIMC_2", "FCRTH"]) _ d hd ?_).append fun d1 k1 => ?_
  · intro o ho
    simp only [List.mem_cons, List.not_mem_nil, or_false] at ho
    rcases ho with rfl | rfl | rfl | rfl
    · exact ⟨"EIMC_0", by simp, plain_const (one _ _ (by decide +kernel)) (by decide +kernel)⟩
    · exact ⟨"EIMC_1", by simp, plain_const (one _ _ (by decide +kernel)) (by decide +kernel)⟩
    · exact ⟨"EIMC_2", by simp, plain_const (one _ _ (by decide +kernel)) (by decide +kernel)⟩
    · exact ⟨"FCRTH", by simp, plain_modify (many _ _ _ 7 (n := 0) (by decide +kernel) (by decide) rfl) (by decide +kernel)⟩
  · refine Exec.cons fun con hs _ => ⟨d1, expect_bit (hb.setting hs) hEEC (j := 9) (by decide) (by rw [slot_zero]; exact k1.bit he (by decide)), ?_⟩
    refine (exec_plain hb (names := ["EEC"]) [.read EEC] d1 k1.good ?_).append fun d2 k2 => ?_
    · intro o ho
      rw [List.mem_singleton] at ho
      subst ho
      exact ⟨_, List.mem_cons_self, plain_read hEEC⟩
    · have k12 : Kept ["EIMC_0", "EIMC_1", "EIMC_2", "FCRTH", "EEC"] d d2 := k1.trans k2 (by decide) (by decide)
      refine Exec.cons fun con hs _ => ?_
      obtain ⟨d3, g1, g2, -⟩ := expect_new (f := bits 19 24) (b := true) (k := 0) (hb.setting hs) k12.good
        (one "FWSM" FWSM (by decide +kernel)) (k12.useInit.trans hu) (by rw [slot_zero, k12.frame _ (by decide)]; exact hn) (by decide +kernel) (by decide)
      have k13 : Kept ["EIMC_0", "EIMC_1", "EIMC_2", "FCRTH", "EEC", "FWSM"] d d3 := k12.trans (Kept.of_step g2) (by decide) (by decide)
      refine ⟨d3, g1, Exec.cons fun con hs _ => ⟨d3, expect_bit (hb.setting hs) (one "RDRXCTL" RDRXCTL (by decide +kernel)) (j := 3) (by decide)
        (by rw [slot_zero]; exact k13.bit hr (by decide)), Exec.nil k13⟩⟩

def setupNames : List String := ["PFUTA", "PFVLVF", "MPSAR", "PFVLVFB", "MTA", "FTQF", "RDRXCTL", "RXPBSIZE", "MFLCN", "FCCFG", "RTTDQSEL", "RTTDT1C",
  "RTTDCS", "TXPBSIZE", "TXPBTHRESH", "DTXMXSZRQ"]

theorem plain_select {n : Nat} (hn : n < 128) : Plain (.write RTTDQSEL (const (BitVec.ofNat 32 n))) "RTTDQSEL" := by
  refine plain_write (N := ⟨0xFFFFFF80, 0, 0, 0⟩) (one _ _ (by decide +kernel)) (fun con old => ?_) (by decide +kernel)
  refine ⟨rfl, fun j ρ h => ?_, fun j ρ h => by simp at h, fun j ρ h => by simp at h, fun j ρ _ h => by simp at h⟩
  change ((BitVec.ofNat 32 n).toNat % 2 ^ 32).testBit j = false
  have hj : 7 ≤ j := by
    by_contra hj
    have : ∀ j, j < 7 → Nat.testBit 0xFFFFFF80 j = false := by decide
    rw [this j (by omega)] at h
    cases h
  rw [BitVec.toNat_ofNat, Nat.mod_mod, Nat.mod_eq_of_lt (by omega : n < 2 ^ 32)]
  exact Nat.testBit_lt_two_pow (Nat.lt_of_lt_of_le hn (Nat.pow_le_pow_right (by decide : 0 < 2) hj : 2 ^ 7 ≤ 2 ^ j))

/-- ixgbe.c:669-910. -/
theorem exec_setup (hb : Base c trivially) (hd : Good d) : Exec c trivially (filterOps ++ receiveOps ++ transmitOps) d (Kept setupNames d) := by
  refine exec_plain hb _ d hd ?_
  intro o ho
  rw [List.mem_append, List.mem_append] at ho
  rcases ho with (ho | ho) | ho
  · simp only [filterOps, List.mem_append, List.mem_map, List.mem_range, List.mem_range'_1, List.mem_cons, List.not_mem_nil, or_false] at ho
    rcases ho with (((((⟨n, hn, rfl⟩ | ⟨n, hn, rfl⟩) | rfl) | ⟨n, hn, rfl⟩) | ⟨n, hn, rfl⟩) | ⟨n, hn, rfl⟩) | ⟨n, hn, rfl⟩
    · exact ⟨"PFUTA", by decide, plain_const (many _ _ _ 127 (n := n) (by decide +kernel) (by omega) rfl) (by decide +kernel)⟩
    · exact ⟨"PFVLVF", by decide, plain_const (many _ _ _ 63 (n := n) (by decide +kernel) (by omega) rfl) (by decide +kernel)⟩
    · exact ⟨"MPSAR", by decide, plain_const (many _ _ _ 255 (n := 0) (by decide +kernel) (by omega) rfl) (by decide +kernel)⟩
    · exact ⟨"MPSAR", by decide, plain_const (many _ _ _ 255 (n := n) (by decide +kernel) (by omega) rfl) (by decide +kernel)⟩
    · exact ⟨"PFVLVFB", by decide, plain_const (many _ _ _ 127 (n := n) (by decide +kernel) (by omega) rfl) (by decide +kernel)⟩
    · exact ⟨"MTA", by decide, plain_const (many _ _ _ 127 (n := n) (by decide +kernel) (by omega) rfl) (by decide +kernel)⟩
    · exact ⟨"FTQF", by decide, plain_modify (many _ _ _ 127 (n := n) (by decide +kernel) (by omega) rfl) (by decide +kernel)⟩
  · simp only [receiveOps, List.mem_append, List.mem_map, List.mem_flatMap, List.mem_range, List.mem_range'_1, List.mem_cons, List.not_mem_nil, or_false] at ho
    rcases ho with (((rfl | rfl | rfl | rfl) | ⟨n, hn, rfl⟩) | (rfl | rfl)) | ⟨n, hn, rfl | rfl⟩
    · exact ⟨"RDRXCTL", by decide, plain_modify (one _ _ (by decide +kernel)) (by decide +kernel)⟩
    · exact ⟨"RDRXCTL", by decide, plain_modify (one _ _ (by decide +kernel)) (by decide +kernel)⟩
    · exact ⟨"RDRXCTL", by decide, plain_modify (one _ _ (by decide +kernel)) (by decide +kernel)⟩
    · exact ⟨"RDRXCTL", by decide, plain_modify (one _ _ (by decide +kernel)) (by decide +kernel)⟩
    · exact ⟨"RXPBSIZE", by decide, plain_const (many _ _ _ 7 (n := n) (by decide +kernel) (by omega) rfl) (by decide +kernel)⟩
    · exact ⟨"MFLCN", by decide, plain_modify (one _ _ (by decide +kernel)) (by decide +kernel)⟩
    · exact ⟨"FCCFG", by decide, plain_modify (one _ _ (by decide +kernel)) (by decide +kernel)⟩
    · exact ⟨"RTTDQSEL", by decide, plain_select hn⟩
    · exact ⟨"RTTDT1C", by decide, plain_const (one _ _ (by decide +kernel)) (by decide +kernel)⟩
  · simp only [transmitOps, List.mem_append, List.mem_map, List.mem_range'_1, List.mem_cons, List.not_mem_nil, or_false] at ho
    rcases ho with (rfl | ⟨n, hn, rfl⟩) | (rfl | rfl | rfl)
    · exact ⟨"RTTDCS", by decide, plain_modify (one _ _ (by decide +kernel)) (by decide +kernel)⟩
    · exact ⟨"TXPBSIZE", by decide, plain_const (many _ _ _ 7 (n := n) (by decide +kernel) (by omega) rfl) (by decide +kernel)⟩
    · exact ⟨"TXPBTHRESH", by decide, plain_modify (many _ _ _ 7 (n := 0) (by decide +kernel) (by omega) rfl) (by decide +kernel)⟩
    · exact ⟨"DTXMXSZRQ", by decide, plain_modify (one _ _ (by decide +kernel)) (by decide +kernel)⟩
    · exact ⟨"RTTDCS", by decide, plain_modify (one _ _ (by decide +kernel)) (by decide +kernel)⟩

/-- ixgbe.c:921-949. -/
theorem exec_promiscuous (hb : Base c trivially) (hd : Good d) (hu : d.useInit = true) (hn : d.regs "RXCTRL" 0 = none) :
    Exec c trivially (promiscuousOps ++ macOps) d (fun d' => Kept ["RXCTRL", "FCTRL", "RAL", "RAH"] d d' ∧ BitIs d' "RXCTRL" 0 0 false) := by
  have hF : Locate FCTRL "FCTRL" 0 := one _ _ (by decide +kernel)
  refine Exec.cons fun con hs _ => ?_
  obtain ⟨d1, e1, e2, e3⟩ := expect_new (f := bit 0) (b := true) (k := 0) (hb.setting hs) hd (one "RXCTRL" RXCTRL (by decide +kernel)) hu
    (by rw [slot_zero]; exact hn) (by decide +kernel) (by decide)
  rw [slot_zero] at e2 e3
  have hx : BitIs d1 "RXCTRL" 0 0 false := ⟨_, e3, fun ρ => by simp [Val.den]⟩
  refine ⟨d1, e1, Exec.cons fun con hs _ => ?_⟩
  obtain ⟨d2, -, f1, f2, -⟩ := modify_plain_ok (m := bit 9) (n := bit 9) (B := [("RXCTRL", "RXEN", false)]) (hb.setting hs) e2.good hF
    (knows_cons (hb.setting hs) e2.good (j := 0) (by decide +kernel) (by rw [slot_zero]; exact hx) knows_nil) (by decide +kernel)
  have hx2 : BitIs d2 "RXCTRL" 0 0 false := hx.frame f2 (by simp)
  refine ⟨d2, f1, Exec.cons fun con hs _ => ?_⟩
  obtain ⟨d3, -, g1, g2, -⟩ := modify_plain_ok (m := bit 8) (n := bit 8) (B := [("RXCTRL", "RXEN", false)]) (hb.setting hs) f2.good hF
    (knows_cons (hb.setting hs) f2.good (j := 0) (by decide +kernel) (by rw [slot_zero]; exact hx2) knows_nil) (by decide +kernel)
  have k3 : Kept ["RXCTRL", "FCTRL"] d d3 := ((Kept.of_step e2).trans (l3 := ["RXCTRL", "FCTRL"]) (Kept.of_step f2) (by decide) (by decide)).trans
    (Kept.of_step g2) (by decide) (by decide)
  refine ⟨d3, g1, (exec_plain hb (names := ["RAL", "RAH"]) _ d3 g2.good ?_).imp fun d4 k4 =>
    ⟨k3.trans k4 (by decide) (by decide), k4.bit (hx2.frame g2 (by simp)) (by decide)⟩⟩
  intro o ho
  change o ∈ [Op.read (RAL 0), Op.read (RAH 0)] at ho
  simp only [List.mem_cons, List.not_mem_nil, or_false] at ho
  rcases ho with rfl | rfl
  · exact ⟨"RAL", by simp, plain_read (many _ _ _ 127 (n := 0) (by decide +kernel) (by decide) rfl)⟩
  · exact ⟨"RAH", by simp, plain_read (many _ _ _ 127 (n := 0) (by decide +kernel) (by decide) rfl)⟩

/-- The device between its uses: what it sends with, and whether it receives. -/
structure Ready (outs : List Nat) (receives : Bool) (d : Device) : Prop where
  good : Good d
  useInit : d.useInit = true
  queue : BitIs d "RXDCTL" 0 25 receives
  enabled : BitIs d "RXCTRL" 0 0 receives
  path : receives = false → d.regs "SECRXCTRL" 0 = none
  stat : receives = false → d.regs "SECRXSTAT" 0 = none
  sends : ∀ q ∈ outs, BitIs d "TXDCTL" q 25 true
  idle : ∀ q, q ∉ outs → d.regs "TXDCTL" q = none
  tail : ∀ q v, d.regs "TDT" q = some v → ∀ ρ, v.den ρ < 2 ^ 16

def outputNames (q : Nat) : List (String × Nat) := [("TXDCTL", q), ("TDBAH", q), ("TDBAL", q), ("TDLEN", q), ("TDWBAH", q), ("TDWBAL", q), ("DCA_TXCTRL", q),
  ("DMATXCTL", 0)]

theorem Step.weaken {S S' : List (String × Nat)} {d d' : Device} (h : Step d S d') (hs : ∀ s ∈ S, s ∈ S') : Step d S' d' :=
  ⟨h.good, h.useInit, fun n k hn => h.frame n k fun e => hn (hs _ e)⟩

theorem Step.then {S : List (String × Nat)} {d d' d'' : Device} (h : Step d S d') (h' : Step d' S d'') : Step d S d'' :=
  ⟨h'.good, h'.useInit.trans h.useInit, fun n k hn => (h'.frame n k hn).trans (h.frame n k hn)⟩

theorem at_slot {o : Op} {name : String} {q : Nat} (h : PlainAt o name ((reg name).slot q)) (hi : (reg name).indexed = true) : PlainAt o name q := by
  rwa [slot_index hi] at h

/-- ixgbe.c:961-1044. -/
theorem exec_output (hb : Base c trivially) {q : Nat} (hq : q < 128) (first : Bool) (ring head : Env → Nat) {outs : List Nat} {receives : Bool}
    (hd : Ready outs receives d) (hn : q ∉ outs) : Exec c trivially (outputOps first q ring head) d (Ready (q :: outs) receives) := by
  have hT : Locate (IxgbeSetup.TXDCTL q) "TXDCTL" q := many _ _ _ 127 (by decide +kernel) (by omega) rfl
  have hslot : (reg "TXDCTL").slot q = q := slot_index (by decide +kernel) q
  have ht : Exec c trivially (outputOps first q ring head) d (fun d' => Step d (outputNames q) d' ∧ BitIs d' "TXDCTL" q 25 true) := by
    refine Exec.append (P := Step d (outputNames q)) (Exec.append (P := Step d (outputNames q)) ?_ fun d1 k1 => ?_) fun d1 k1 => ?_
    · refine Exec.cons fun con hs _ => ?_
      obtain ⟨d1, e1, e2, -⟩ := expect_new (f := bit 25) (b := true) (k := 0) (hb.setting hs) hd.good hT hd.useInit (by rw [hslot]; exact hd.idle q hn)
        (by decide +kernel) (by decide)
      rw [hslot] at e2
      have s1 : Step d (outputNames q) d1 := e2.weaken (by simp [outputNames])
      refine ⟨d1, e1, ?_⟩
      change Exec c trivially ([_, _, _, _, _, _] ++ ([_] ++ [_])) d1 _
      refine (exec_steps hb (S := outputNames q) _ d1 e2.good ?_).append fun d2 k2 => ?_
      · intro o ho
        simp only [List.mem_cons, List.not_mem_nil, or_false] at ho
        rcases ho with rfl | rfl | rfl | rfl | rfl | rfl
        · exact ⟨"TDBAH", q, by simp [outputNames], at_slot (at_sym (many _ _ _ 127 (by decide +kernel) (by omega) rfl) (by decide +kernel)) (by decide +kernel)⟩
        · exact ⟨"TDBAL", q, by simp [outputNames], at_slot (at_sym (many _ _ _ 127 (by decide +kernel) (by omega) rfl) (by decide +kernel)) (by decide +kernel)⟩
        · exact ⟨"TDLEN", q, by simp [outputNames], at_slot (at_const (many _ _ _ 127 (by decide +kernel) (by omega) rfl) (by decide +kernel)) (by decide +kernel)⟩
        · exact ⟨"TXDCTL", q, by simp [outputNames], at_slot (at_modify hT (by decide +kernel)) (by decide +kernel)⟩
        · exact ⟨"TXDCTL", q, by simp [outputNames], at_slot (at_modify hT (by decide +kernel)) (by decide +kernel)⟩
        · exact ⟨"TDWBAH", q, by simp [outputNames], at_slot (at_sym (many _ _ _ 127 (by decide +kernel) (by omega) rfl) (by decide +kernel)) (by decide +kernel)⟩
      · refine Exec.cons fun con hs hal => ?_
        obtain ⟨d3, f1, f2, -⟩ := write_plain_ok (N := ⟨0, 1, 0, 12⟩) (B := []) (name := "TDWBAL") (i := q) (value := .sym 32 fun ρ => head ρ ||| 1) (hb.setting hs) k2.good
          (many _ _ _ 127 (by decide +kernel) (by omega) rfl : Locate (IxgbeSetup.TDWBAL q) "TDWBAL" q) (fun old st _ _ => by
            refine ⟨rfl, fun j ρ h => by simp at h, fun j ρ h => ?_, fun j ρ h => by simp at h, fun j ρ hc h => ?_⟩
            · have hj : j = 0 := by
                by_contra hj
                rw [Nat.testBit_lt_two_pow (Nat.one_lt_two_pow hj)] at h
                cases h
              subst hj
              change ((head ρ ||| 1) % 2 ^ 32).testBit 0 = true
              rw [Nat.testBit_mod_two_pow, Nat.testBit_or]
              simp
            · have hj : j = 2 ∨ j = 3 := by
                have h16 : j < 4 := by
                  by_contra hj
                  rw [Nat.testBit_lt_two_pow (Nat.lt_of_lt_of_le (by decide : 12 < 2 ^ 4) (Nat.pow_le_pow_right (by decide) (by omega)))] at h
                  cases h
                have : ∀ j, j < 4 → Nat.testBit 12 j = true → j = 2 ∨ j = 3 := by decide
                exact this j h16 h
              have h1 := hal q hq _ rfl ρ hc
              have h2 : ∀ x j : Nat, j < 4 → x.testBit j = (x % 16).testBit j := by
                intro x j hj
                rw [show 16 = 2 ^ 4 from rfl, Nat.testBit_mod_two_pow]
                simp [hj]
              rw [h2 _ j (by omega), h1]
              rcases hj with rfl | rfl <;> decide) knows_nil (by decide +kernel)
        rw [slot_index (by decide +kernel)] at f2
        refine ⟨d3, f1, ?_⟩
        refine (exec_steps hb (S := outputNames q) _ d3 f2.good ?_).imp fun d4 k4 => ((s1.then k2).then (f2.weaken (by simp [outputNames]))).then k4
        intro o ho
        change o ∈ [clearBits (IxgbeSetup.DCATXCTRL q) (bit 11)] at ho
        rw [List.mem_singleton] at ho
        subst ho
        exact ⟨"DCA_TXCTRL", q, by simp [outputNames], at_slot (at_modify (many _ _ _ 127 (by decide +kernel) (by omega) rfl) (by decide +kernel)) (by decide +kernel)⟩
    · refine (exec_steps hb (S := outputNames q) _ d1 k1.good ?_).imp fun d2 k2 => k1.then k2
      intro o ho
      cases first with
      | false => simp at ho
      | true =>
        simp only [if_true, List.mem_singleton] at ho
        subst ho
        exact ⟨"DMATXCTL", 0, by simp [outputNames], by
          have := at_modify (m := bit 0) (n := bit 0) (one "DMATXCTL" IxgbeSetup.DMATXCTL (by decide +kernel)) (by decide +kernel)
          rwa [slot_zero] at this⟩
    · refine Exec.cons fun con hs _ => ?_
      obtain ⟨d2, g1, g2, g3⟩ := modify_self (i := q) (g := "ENABLE") (b := true) (j := 25) (action := "Enable transmit queue") (m := bit 25) (n := bit 25)
        (hb.setting hs) k1.good hT knows_nil (by decide +kernel) (find_spec (by decide +kernel)) (by decide +kernel) (by decide +kernel) (by decide)
        (by decide) (by decide)
      refine ⟨d2, g1, Exec.cons fun con hs _ => ⟨d2, expect_bit (hb.setting hs) hT (by decide) g3, Exec.nil ?_⟩⟩
      rw [hslot] at g2 g3
      exact ⟨k1.then (g2.weaken (by simp [outputNames])), g3⟩
  refine ht.imp fun d' ⟨h1, h2⟩ => ⟨h1.good, h1.useInit.trans hd.useInit, hd.queue.frame h1 (by simp [outputNames]), hd.enabled.frame h1 (by simp [outputNames]),
    fun h => by rw [h1.frame _ _ (by simp [outputNames])]; exact hd.path h, fun h => by rw [h1.frame _ _ (by simp [outputNames])]; exact hd.stat h, ?_, ?_, ?_⟩
  · intro q' hq'
    by_cases e : q' = q
    · subst e; exact h2
    · exact (hd.sends q' ((List.mem_cons.1 hq').resolve_left e)).frame h1 (by simp [outputNames, e])
  · intro q' hq'
    rw [List.mem_cons, not_or] at hq'
    rw [h1.frame _ _ (by simp [outputNames, hq'.1])]
    exact hd.idle q' hq'.2
  · intro q' v hv
    rw [h1.frame _ _ (by simp [outputNames])] at hv
    exact hd.tail q' v hv

def inputNames : List (String × Nat) := [("RXDCTL", 0), ("RDBAH", 0), ("RDBAL", 0), ("RDLEN", 0), ("SRRCTL", 0), ("RDT", 0), ("SECRXCTRL", 0), ("SECRXSTAT", 0),
  ("RXCTRL", 0), ("CTRL_EXT", 0), ("DCA_RXCTRL", 0)]

theorem at_zero {o : Op} {name : String} (h : PlainAt o name ((reg name).slot 0)) : PlainAt o name 0 := by
  rwa [slot_zero] at h

theorem modified_set {m n : BitVec 32} {v : Val} (hv : v.width = 32) {j : Nat} {b : Bool} (hm : m.getLsbD j = true) (hn : n.getLsbD j = b) (ρ : Env) :
    ((modified m n v).den ρ).testBit j = b := by
  rw [modified_bit m n hv, hm, hn]; simp

/-- ixgbe.c:1050-1134. -/
theorem exec_input (hb : Base c trivially) (ring : Env → Nat) {outs : List Nat} (hd : Ready outs false d) :
    Exec c trivially (inputOps ring) d (Ready outs true) := by
  have hR : Locate IxgbeSetup.RXDCTL "RXDCTL" 0 := zeroth _ _ 0x40 63 (x := (0xd028, 0x40, 127)) (by decide +kernel) rfl
  have hS : Locate IxgbeSetup.SECRXCTRL "SECRXCTRL" 0 := one _ _ (by decide +kernel)
  have ht : Exec c trivially (inputOps ring) d (fun d' => Step d inputNames d' ∧ BitIs d' "RXDCTL" 0 25 true ∧ BitIs d' "RXCTRL" 0 0 true) := by
    refine Exec.cons fun con hs _ => ⟨d, expect_bit (hb.setting hs) hR (j := 25) (b := false) (by decide) (by rw [slot_zero]; exact hd.queue), ?_⟩
    change Exec c trivially ([_, _, _, _, _] ++ _) d _
    refine (exec_steps hb (S := [("RDBAH", 0), ("RDBAL", 0), ("RDLEN", 0), ("SRRCTL", 0)]) _ d hd.good ?_).append fun d1 k1 => ?_
    · intro o ho
      simp only [List.mem_cons, List.not_mem_nil, or_false] at ho
      rcases ho with rfl | rfl | rfl | rfl | rfl
      · exact ⟨"RDBAH", 0, by simp, at_zero (at_sym (zeroth _ _ 0x40 63 (x := (0xd004, 0x40, 127)) (by decide +kernel) rfl) (by decide +kernel))⟩
      · exact ⟨"RDBAL", 0, by simp, at_zero (at_sym (zeroth _ _ 0x40 63 (x := (0xd000, 0x40, 127)) (by decide +kernel) rfl) (by decide +kernel))⟩
      · exact ⟨"RDLEN", 0, by simp, at_zero (at_const (zeroth _ _ 0x40 63 (x := (0xd008, 0x40, 127)) (by decide +kernel) rfl) (by decide +kernel))⟩
      · exact ⟨"SRRCTL", 0, by simp, at_zero (at_modify (zeroth _ _ 0x40 63 (x := (0xd014, 0x40, 127)) (by decide +kernel) rfl) (by decide +kernel))⟩
      · exact ⟨"SRRCTL", 0, by simp, at_zero (at_modify (zeroth _ _ 0x40 63 (x := (0xd014, 0x40, 127)) (by decide +kernel) rfl) (by decide +kernel))⟩
    have hsec1 : d1.regs "SECRXCTRL" 0 = none := by rw [k1.frame _ _ (by simp)]; exact hd.path rfl
    have hrx1 : BitIs d1 "RXCTRL" 0 0 false := hd.enabled.frame k1 (by simp)
    have s1 : Step d inputNames d1 := k1.weaken (by simp [inputNames])
    refine Exec.cons fun con hs _ => ?_
    obtain ⟨d2, e1, e2, e3⟩ := modify_self (i := 0) (g := "ENABLE") (b := true) (j := 25) (action := "Enable Receive Queue Enable") (m := bit 25) (n := bit 25)
      (hb.setting hs) k1.good hR knows_nil (by decide +kernel) (find_spec (by decide +kernel)) (by decide +kernel) (by decide +kernel) (by decide)
      (by decide) (by decide)
    refine ⟨d2, e1, Exec.cons fun con hs _ => ⟨d2, expect_bit (hb.setting hs) hR (by decide) e3, ?_⟩⟩
    rw [slot_zero] at e2 e3
    have hsec2 : d2.regs "SECRXCTRL" 0 = none := by rw [e2.frame _ _ (by simp)]; exact hsec1
    have hrx2 := hrx1.frame e2 (by simp)
    have s2 : Step d inputNames d2 := s1.then (e2.weaken (by simp [inputNames]))
    refine Exec.cons fun con hs _ => ?_
    obtain ⟨d3, f1, f2, -⟩ := write_plain_ok (N := constKnown 255#32) (B := [("RXDCTL", "ENABLE", true)]) (hb.setting hs) e2.good
      (zeroth "RDT" _ 0x40 63 (x := (0xd018, 0x40, 127)) (by decide +kernel) rfl : Locate IxgbeSetup.RDT "RDT" 0) (fun old _ _ _ => constKnown_sat _ _ old)
      (knows_cons (hb.setting hs) e2.good (j := 25) (by decide +kernel) (by rw [slot_zero]; exact e3) knows_nil) (by decide +kernel)
    refine ⟨d3, f1, ?_⟩
    rw [slot_zero] at f2
    have hsec3 : d3.regs "SECRXCTRL" 0 = none := by rw [f2.frame _ _ (by simp)]; exact hsec2
    have hrx3 := hrx2.frame f2 (by simp)
    have hq3 := e3.frame f2 (by simp)
    have s3 : Step d inputNames d3 := s2.then (f2.weaken (by simp [inputNames]))
    refine Exec.cons fun con hs _ => ?_
    have hc := hb.setting hs
    obtain ⟨old, st, hf, hw, d4, hd4, -, hv, hfr, h⟩ := modify_single_ok (i := 0) (B := []) (j := 1) (action := "Halt the receive data path")
      (m := bit 1) (n := bit 1) hc f2.good hS knows_nil (by decide +kernel) (find_spec (by decide +kernel))
    rw [slot_zero] at hv hfr
    have hold := (read_new (c := { c with constraints := con }) hS hf (by rw [slot_zero]; exact hsec3)).1 (s3.useInit.trans hd.useInit) 1 (by decide +kernel)
    have hpost : (spec "Halt the receive data path").postcond = [("SECRXSTAT", "SECRX_RDY", true.toNat)] := by decide +kernel
    rcases h with ⟨h, -⟩ | ⟨hu1, h⟩
    · exfalso
      have := h (fun _ => 0)
      rw [modified_bit _ _ hw, hold] at this
      revert this
      decide
    obtain ⟨d5, g1, g2, g3, -⟩ := post_reg hc hd4 (n := "SECRXSTAT") (g := "SECRX_RDY") (j := 0) (by decide +kernel) 0 true
    rw [hpost, post_cons g1] at h
    rw [slot_zero] at g2
    have s45 : Step d3 [("SECRXCTRL", 0), ("SECRXSTAT", 0)] d5 := by
      refine ⟨g2.good, ?_, fun n k hn => ?_⟩
      · rw [g2.useInit, hu1]
        rw [show ("Halt the receive data path" == "Initiate Software Reset") = false by decide, Bool.or_false]
      · simp only [List.mem_cons, List.not_mem_nil, or_false, Prod.mk.injEq, not_or] at hn
        rw [g2.frame n k (by simpa using hn.2), hfr n k hn.1]
    have hrx5 := hrx3.frame s45 (by simp)
    have hq5 := hq3.frame s45 (by simp)
    have s5 : Step d inputNames d5 := s3.then (s45.weaken (by simp [inputNames]))
    refine ⟨d5, h, Exec.cons fun con hs _ => ⟨d5, expect_bit (hb.setting hs) (one "SECRXSTAT" IxgbeSetup.SECRXSTAT (by decide +kernel)) (by decide) g3, ?_⟩⟩
    refine Exec.cons fun con hs _ => ?_
    obtain ⟨d6, old6, l1, l2, l3, l4, -⟩ := modify_plain_ok (i := 0) (m := bit 0) (n := bit 0) (B := [("RXCTRL", "RXEN", false), ("SECRXSTAT", "SECRX_RDY", true)])
      (hb.setting hs) g2.good (one "RXCTRL" IxgbeSetup.RXCTRL (by decide +kernel))
      (knows_cons (hb.setting hs) g2.good (j := 0) (by decide +kernel) (by rw [slot_zero]; exact hrx5)
        (knows_cons (hb.setting hs) g2.good (j := 0) (by decide +kernel) g3 knows_nil)) (by decide +kernel)
    rw [slot_zero] at l2 l3
    have hrx6 : BitIs d6 "RXCTRL" 0 0 true := ⟨_, l3, fun ρ => modified_set l4 (by decide) (by decide) ρ⟩
    have hq6 := hq5.frame l2 (by simp)
    have s6 : Step d inputNames d6 := s5.then (l2.weaken (by simp [inputNames]))
    refine ⟨d6, l1, Exec.cons fun con hs _ => ?_⟩
    obtain ⟨d7, -, m1, m2, -⟩ := modify_plain_ok (i := 0) (m := bit 1) (n := 0#32) (B := [("RXCTRL", "RXEN", true)])
      (hb.setting hs) l2.good hS (knows_cons (hb.setting hs) l2.good (j := 0) (by decide +kernel) (by rw [slot_zero]; exact hrx6) knows_nil) (by decide +kernel)
    rw [slot_zero] at m2
    have s7 : Step d inputNames d7 := s6.then (m2.weaken (by simp [inputNames]))
    refine ⟨d7, m1, (exec_steps hb (S := [("CTRL_EXT", 0), ("DCA_RXCTRL", 0)]) _ d7 m2.good ?_).imp fun d8 k8 =>
      ⟨s7.then (k8.weaken (by simp [inputNames])), (hq6.frame m2 (by simp)).frame k8 (by simp), (hrx6.frame m2 (by simp)).frame k8 (by simp)⟩⟩
    intro o ho
    simp only [List.mem_cons, List.not_mem_nil, or_false] at ho
    rcases ho with rfl | rfl
    · exact ⟨"CTRL_EXT", 0, by simp, at_zero (at_modify (one _ _ (by decide +kernel)) (by decide +kernel))⟩
    · exact ⟨"DCA_RXCTRL", 0, by simp, at_zero (at_modify (zeroth _ _ 0x40 63 (x := (0xd00c, 0x40, 127)) (by decide +kernel) rfl) (by decide +kernel))⟩
  refine ht.imp fun d' ⟨h1, h2, h3⟩ => ⟨h1.good, h1.useInit.trans hd.useInit, h2, h3, fun h => (by cases h), fun h => (by cases h),
    fun q hq => (hd.sends q hq).frame h1 (by simp [inputNames]), fun q hq => ?_, fun q v hv => ?_⟩
  · rw [h1.frame _ _ (by simp [inputNames])]; exact hd.idle q hq
  · rw [h1.frame _ _ (by simp [inputNames])] at hv; exact hd.tail q v hv

theorem high_zero {x j : Nat} (hx : x < 2 ^ 16) (h : Nat.testBit 0xFFFF0000 j = true) : x.testBit j = false := by
  have hj : 16 ≤ j := by
    by_contra hj
    have : ∀ j, j < 16 → Nat.testBit 0xFFFF0000 j = false := by decide
    rw [this j (by omega)] at h
    cases h
  exact Nat.testBit_lt_two_pow (Nat.lt_of_lt_of_le hx (Nat.pow_le_pow_right (by decide : 0 < 2) hj : 2 ^ 16 ≤ 2 ^ j))

/-- ixgbe.c:1255. -/
theorem exec_send (hb : Base c trivially) {q : Nat} (hq : q < 128) {outs : List Nat} {receives : Bool} (hd : Ready outs receives d) (hn : q ∈ outs) {v : Val}
    (hv : v.width = 32) (hlt : ∀ ρ, v.den ρ < 2 ^ 16) : Exec c trivially [.write (IxgbeSetup.TDT q) v] d (Ready outs receives) := by
  have hT : Locate (IxgbeSetup.TDT q) "TDT" q := many _ _ _ 127 (by decide +kernel) (by omega) rfl
  have hslot : (reg "TDT").slot q = q := slot_index (by decide +kernel) q
  refine Exec.cons fun con hs _ => ?_
  obtain ⟨d1, e1, e2, e3⟩ := write_plain_ok (N := ⟨0, 0, 0xFFFF0000, 0⟩) (B := [("TXDCTL", "ENABLE", true)]) (value := v) (hb.setting hs) hd.good hT
    (fun old st how hf => by
      have hold : ∀ ρ, old.den ρ < 2 ^ 16 := by
        cases h : d.regs "TDT" q with
        | some w =>
          rw [fetch_stored (by rw [hslot]; exact h)] at hf
          cases hf
          exact hd.tail q _ h
        | none =>
          intro ρ
          rw [(read_new (c := { c with constraints := con }) hT hf (by rw [hslot]; exact h)).1 hd.useInit 0 (by decide +kernel)]
          simp [Val.den]
      refine ⟨hv, fun j ρ h => by simp at h, fun j ρ h => by simp at h, fun j ρ h => ?_, fun j ρ _ h => by simp at h⟩
      rw [high_zero (hlt ρ) h, high_zero (hold ρ) h])
    (knows_cons (hb.setting hs) hd.good (j := 25) (by decide +kernel) (by rw [slot_index (by decide +kernel)]; exact hd.sends q hn) knows_nil) (by decide +kernel)
  rw [hslot] at e2 e3
  refine ⟨d1, e1, Exec.nil ⟨e2.good, e2.useInit.trans hd.useInit, hd.queue.frame e2 (by simp), hd.enabled.frame e2 (by simp),
    fun h => by rw [e2.frame _ _ (by simp)]; exact hd.path h, fun h => by rw [e2.frame _ _ (by simp)]; exact hd.stat h, fun q' h => (hd.sends q' h).frame e2 (by simp), fun q' h => ?_, fun q' w hw => ?_⟩⟩
  · rw [e2.frame _ _ (by simp)]; exact hd.idle q' h
  · by_cases e : q' = q
    · subst e
      rw [e3] at hw
      cases hw
      exact hlt
    · rw [e2.frame _ _ (by simp [e])] at hw
      exact hd.tail q' w hw

/-- ixgbe.c:1260. -/
theorem exec_receive (hb : Base c trivially) {outs : List Nat} (hd : Ready outs true d) {v : Val}
    (hv : v.width = 32) : Exec c trivially [.write IxgbeSetup.RDT v] d (Ready outs true) := by
  refine Exec.cons fun con hs _ => ?_
  obtain ⟨d1, e1, e2, -⟩ := write_plain_ok (N := ⟨0, 0, 0, 0⟩) (B := [("RXDCTL", "ENABLE", true)]) (value := v) (hb.setting hs) hd.good
    (zeroth "RDT" _ 0x40 63 (x := (0xd018, 0x40, 127)) (by decide +kernel) rfl : Locate IxgbeSetup.RDT "RDT" 0)
    (fun old st _ _ => ⟨hv, fun j ρ h => by simp at h, fun j ρ h => by simp at h, fun j ρ h => by simp at h, fun j ρ _ h => by simp at h⟩)
    (knows_cons (hb.setting hs) hd.good (j := 25) (by decide +kernel) (by rw [slot_zero]; exact hd.queue) knows_nil) (by decide +kernel)
  rw [slot_zero] at e2
  refine ⟨d1, e1, Exec.nil ⟨e2.good, e2.useInit.trans hd.useInit, hd.queue.frame e2 (by simp), hd.enabled.frame e2 (by simp),
    fun h => (by cases h), fun h => (by cases h), fun q' h => (hd.sends q' h).frame e2 (by simp), fun q' h => ?_, fun q' w hw => ?_⟩⟩
  · rw [e2.frame _ _ (by simp)]; exact hd.idle q' h
  · rw [e2.frame _ _ (by simp)] at hw
    exact hd.tail q' w hw

theorem fresh_good (bar0 bar1 : Val) : Good (fresh bar0 bar1) := by
  refine ⟨fun n k v hv => (by cases hv), ?_, fun a ha => (by cases ha)⟩
  intro n r k v _ h0 h1 hv
  simp only [fresh, if_neg h0, if_neg h1, ite_self] at hv
  cases hv

/-- ixgbe.c:475-949. -/
theorem exec_init (hb : Base c trivially) (bar0 bar1 : Val) : Exec c trivially (initOps ++ promiscuousOps ++ macOps) (fresh bar0 bar1) (Ready [] false) := by
  have e : initOps ++ promiscuousOps ++ macOps = pciOps ++ ((List.range 128).flatMap disableOps ++ (stopOps ++ (resetOps ++ (waitOps ++
    ((filterOps ++ receiveOps ++ transmitOps) ++ (promiscuousOps ++ macOps)))))) := by
    simp only [initOps, List.append_assoc]
  rw [e]
  refine (exec_pciOps hb (fresh_good bar0 bar1)).append fun d1 k1 => ?_
  refine (exec_disables hb _ d1 (fun q hq => List.mem_range.1 hq) k1.good).append fun d2 ⟨k2, b2⟩ => ?_
  have a2 : ∀ n, n ∉ ["RXDCTL"] → ∀ k, d2.regs n k = none := fun n hn k => by rw [k2.frame n hn, k1.frame n (by simp)]; rfl
  have rx2 := b2 (.inl (by decide))
  refine (exec_stop hb k2.good (by rw [k2.useInit, k1.useInit]; rfl) (a2 _ (by decide) _) rx2).append fun d3 ⟨k3, c3⟩ => ?_
  refine (exec_reset hb k3.good c3).append fun d4 ⟨g4, u4, f4, e4, r4⟩ => ?_
  have a4 : ∀ n, n ∉ ["RXDCTL", "CTRL", "STATUS", "EEC", "RDRXCTL"] → ∀ k, d4.regs n k = none := by
    intro n hn k
    simp only [List.mem_cons, List.not_mem_nil, or_false, not_or] at hn
    rw [f4 n (by simp [hn]), k3.frame n (by simp [hn]), a2 n (by simp [hn])]
  have rx4 : BitIs d4 "RXDCTL" 0 25 false := by
    obtain ⟨v, q1, q2⟩ := k3.bit rx2 (by decide)
    exact ⟨v, by rw [f4 _ (by decide)]; exact q1, q2⟩
  refine (exec_wait hb g4 u4 (a4 _ (by decide) _) e4 r4).append fun d5 k5 => ?_
  refine (exec_setup hb k5.good).append fun d6 k6 => ?_
  have f6 : ∀ n, n ∉ ["EIMC_0", "EIMC_1", "EIMC_2", "FCRTH", "EEC", "FWSM"] → n ∉ setupNames → d6.regs n = d4.regs n := fun n h h' => by
    rw [k6.frame n h', k5.frame n h]
  have u6 : d6.useInit = true := by rw [k6.useInit, k5.useInit, u4]
  refine (exec_promiscuous hb k6.good u6 (by rw [f6 _ (by decide) (by decide)]; exact a4 _ (by decide) _)).imp fun d7 ⟨k7, x7⟩ => ?_
  refine ⟨k7.good, k7.useInit.trans u6, ?_, x7, fun _ => ?_, fun _ => ?_, fun q hq => (by cases hq), fun q _ => ?_, fun q v hv => ?_⟩
  · obtain ⟨v, q1, q2⟩ := rx4
    exact ⟨v, by rw [k7.frame _ (by decide), f6 _ (by decide) (by decide)]; exact q1, q2⟩
  · rw [k7.frame _ (by decide), f6 _ (by decide) (by decide)]; exact a4 _ (by decide) _
  · rw [k7.frame _ (by decide), f6 _ (by decide) (by decide)]; exact a4 _ (by decide) _
  · rw [k7.frame _ (by decide), f6 _ (by decide) (by decide)]; exact a4 _ (by decide) _
  · rw [k7.frame _ (by decide), f6 _ (by decide) (by decide), a4 _ (by decide)] at hv; cases hv

/-- Uses of a device that make sense: each queue is set up at most once, as is receiving, and tails are only announced after. -/
def Valid : List Nat → Bool → List Use → Prop
  | _, _, [] => True
  | outs, receives, .output q _ _ :: us => q < 128 ∧ q ∉ outs ∧ Valid (q :: outs) receives us
  | outs, receives, .input _ :: us => receives = false ∧ Valid outs true us
  | outs, receives, .sendTail q v :: us => q ∈ outs ∧ v.width = 32 ∧ (∀ ρ, v.den ρ < 2 ^ 16) ∧ Valid outs receives us
  | outs, receives, .receiveTail v :: us => receives = true ∧ v.width = 32 ∧ Valid outs receives us

theorem exec_uses (hb : Base c trivially) : ∀ (us : List Use) (sends : Bool) (outs : List Nat) (receives : Bool) (d : Device), (∀ q ∈ outs, q < 128) →
    Ready outs receives d → Valid outs receives us → Exec c trivially (useOps sends us) d (fun d' => ∃ outs' receives', Ready outs' receives' d' ∧
      (∀ q ∈ outs, q ∈ outs') ∧ (∀ q ring head, Use.output q ring head ∈ us → q ∈ outs') ∧
      (receives' = true ↔ receives = true ∨ ∃ ring, Use.input ring ∈ us))
  | [], _, outs, receives, d, _, hd, _ => Exec.nil ⟨outs, receives, hd, fun _ h => h, by simp, by simp⟩
  | .output q ring head :: us, sends, outs, receives, d, ho, hd, hv => by
    obtain ⟨h1, h2, h3⟩ := hv
    refine (exec_output hb h1 (!sends) ring head hd h2).append fun d1 hd1 => ?_
    refine (exec_uses hb us true (q :: outs) receives d1 (by intro q' h; rcases List.mem_cons.1 h with rfl | h; exacts [h1, ho q' h]) hd1 h3).imp
      fun d2 ⟨o, r, e1, e2, e3, e4⟩ => ⟨o, r, e1, fun q' h => e2 q' (List.mem_cons_of_mem _ h), ?_, ?_⟩
    · intro q' r' h' hm
      rcases List.mem_cons.1 hm with e | hm
      · cases e; exact e2 _ List.mem_cons_self
      · exact e3 _ _ _ hm
    · rw [e4]; simp
  | .input ring :: us, sends, outs, receives, d, ho, hd, hv => by
    obtain ⟨rfl, h3⟩ := hv
    refine (exec_input hb ring hd).append fun d1 hd1 => ?_
    refine (exec_uses hb us sends outs true d1 ho hd1 h3).imp fun d2 ⟨o, r, e1, e2, e3, e4⟩ => ⟨o, r, e1, e2, ?_, ?_⟩
    · intro q' r' h' hm
      rcases List.mem_cons.1 hm with e | hm
      · cases e
      · exact e3 _ _ _ hm
    · rw [e4]
      simp only [true_or, true_iff]
      exact .inr ⟨ring, List.mem_cons_self⟩
  | .sendTail q v :: us, sends, outs, receives, d, ho, hd, hv => by
    obtain ⟨h1, h2, h3, h4⟩ := hv
    refine Exec.append (ops := [_]) (exec_send hb (ho q h1) hd h1 h2 h3) fun d1 hd1 => ?_
    refine (exec_uses hb us sends outs receives d1 ho hd1 h4).imp fun d2 ⟨o, r, e1, e2, e3, e4⟩ => ⟨o, r, e1, e2, ?_, ?_⟩
    · intro q' r' h' hm
      rcases List.mem_cons.1 hm with e | hm
      · cases e
      · exact e3 _ _ _ hm
    · rw [e4]; simp
  | .receiveTail v :: us, sends, outs, receives, d, ho, hd, hv => by
    obtain ⟨rfl, h2, h4⟩ := hv
    refine Exec.append (ops := [_]) (exec_receive hb hd h2) fun d1 hd1 => ?_
    refine (exec_uses hb us sends outs true d1 ho hd1 h4).imp fun d2 ⟨o, r, e1, e2, e3, e4⟩ => ⟨o, r, e1, e2, ?_, ?_⟩
    · intro q' r' h' hm
      rcases List.mem_cons.1 hm with e | hm
      · cases e
      · exact e3 _ _ _ hm
    · rw [e4]; simp

theorem exec_driver (hb : Base c trivially) (bar0 bar1 : Val) (us : List Use) (hv : Valid [] false us) :
    Exec c trivially (driverOps us) (fresh bar0 bar1) (fun d' => (∀ q ring head, Use.output q ring head ∈ us → BitIs d' "TXDCTL" q 25 true) ∧
      ∃ receives, BitIs d' "RXDCTL" 0 25 receives ∧ BitIs d' "RXCTRL" 0 0 receives ∧ (receives = true ↔ ∃ ring, Use.input ring ∈ us)) := by
  refine (exec_init hb bar0 bar1).append fun d1 hd1 => ?_
  refine (exec_uses hb us false [] false d1 (by simp) hd1 hv).imp fun d2 ⟨o, r, e1, _, e3, e4⟩ => ⟨fun q ring head h => e1.sends q (e3 q ring head h), r, e1.queue, e1.enabled, ?_⟩
  rw [e4]; simp

end Driver

end Card

/-- C67: with the tables of spec_reg.py and spec_act.py, the tool accepts every access of the driver to a device: those of the
set-up, those that make agents send to it with any queues and receive from it, and every announcement of packets, whatever the
path constraints are, as long as they can be met and say that the address where heads of rings are written is aligned, which
ixgbe.c:1016 checks before. Each polled field is as the driver expects. In the end exactly what was set up is enabled.
(`CardFaithful` says that claripy sees that a field does not change exactly if it does not.) -/
theorem C67_accepted (c : Ctx) (trivially : Val → Val → Bool) (bar0 bar1 : Val) (us : List Use) (l : List (Op × (Env → Prop)))
    (hregs : c.regs = registers) (hpci : c.pci = pciRegs) (ht : CardFaithful trivially) (hu : Card.Valid [] false us)
    (hl : l.map (·.1) = driverOps us) (hf : Card.Fine l) :
    ∃ d, run c trivially (fresh bar0 bar1) l = some d ∧
      (∀ q ring head, Use.output q ring head ∈ us → ∃ v, d.regs "TXDCTL" q = some v ∧ ∀ ρ, (v.den ρ).testBit 25 = true) ∧
      ∃ v w, d.regs "RXDCTL" 0 = some v ∧ d.regs "RXCTRL" 0 = some w ∧
        ∀ ρ, ((v.den ρ).testBit 25 = true ↔ ∃ ring, Use.input ring ∈ us) ∧ ((w.den ρ).testBit 0 = true ↔ ∃ ring, Use.input ring ∈ us) := by
  obtain ⟨d, h1, h2, r, ⟨v, h3, h4⟩, ⟨w, h5, h6⟩, h7⟩ := Card.exec_driver ⟨hregs, hpci, ht⟩ bar0 bar1 us hu l hl hf
  exact ⟨d, h1, h2, v, w, h3, h5, fun ρ => by rw [h4, h6, h7]; simp⟩

namespace CardExample

/-- No constraints but that the address of the heads is that of a cache line. -/
def con : Env → Prop := fun ρ => ρ 0 % 64 = 0 ∧ ρ 0 < 2 ^ 40

/-- Two agents send to the device and one receives from it; the addresses are unknown. -/
def uses : List Use := [.output 0 (fun ρ => ρ 1) (fun ρ => ρ 0), .output 5 (fun ρ => ρ 2) (fun ρ => ρ 0 + 64), .input (fun ρ => ρ 3),
  .sendTail 5 (.bvv 32 9), .receiveTail (.bvv 32 8), .sendTail 0 (.bvv 32 255), .sendTail 0 (.sym 32 fun ρ => ρ 4 % 256)]

def other : Op → Bool
  | .write a _ => decide (a < 0x6038 ∨ 0x8038 ≤ a) || (a - 0x6038) % 0x40 != 0
  | _ => true

theorem other_ne {o : Op} (h : other o = true) {q : Nat} (hq : q < 128) {v : Val} : o ≠ .write (Verif.IxgbeSetup.TDWBAL q) v := by
  rintro rfl
  simp only [other, Bool.or_eq_true, decide_eq_true_eq, bne_iff_ne] at h
  unfold Verif.IxgbeSetup.TDWBAL at h
  omega

theorem aligned (x : Nat) (h : x % 64 = 0) : (x ||| 1) % 2 ^ 32 % 16 = 1 := by
  rw [Nat.mod_mod_of_dvd _ (by decide : 16 ∣ 2 ^ 32), show 16 = 2 ^ 4 from rfl, Nat.or_mod_two_pow, show x % 2 ^ 4 = 0 by omega]; decide

theorem fine : Card.Fine ((driverOps uses).map fun o => (o, con)) := by
  have key : ∀ o ∈ driverOps uses, ∀ q < 128, ∀ v, o = .write (Verif.IxgbeSetup.TDWBAL q) v → ∀ ρ, con ρ → v.den ρ % 16 = 1 := by
    have h1 : ∀ o ∈ initOps ++ promiscuousOps ++ macOps, other o = true := by
      rw [← List.all_eq_true]; decide +kernel
    intro o ho q hq v e ρ hρ
    rw [driverOps, List.mem_append] at ho
    rcases ho with ho | ho
    · exact absurd e (other_ne (h1 o ho) hq)
    · simp only [uses, useOps, outputOps, inputOps, Bool.not_false, Bool.not_true, if_true, Bool.false_eq_true, if_false, List.append_nil, List.cons_append, List.nil_append,
        List.mem_cons, List.not_mem_nil, or_false] at ho
      by_cases hoth : other o = true
      · exact absurd e (other_ne hoth hq)
      · rcases ho with h | h | h | h | h | h | h | h | h | h | h | h | h | h | h | h | h | h | h | h | h | h | h | h | h | h | h | h | h | h | h | h | h | h | h | h | h | h | h | h | h | h
        all_goals first
          | exact absurd (by rw [h]; decide) hoth
          | (rw [h] at e; injection e with _ e; rw [← e]; first
              | exact aligned _ hρ.1
              | exact aligned _ (by have := hρ.1; omega))
  intro x hx
  obtain ⟨o, ho, rfl⟩ := List.mem_map.1 hx
  exact ⟨⟨fun _ => 0, by change 0 % 64 = 0 ∧ 0 < 2 ^ 40; decide⟩, key o ho⟩

open Classical in
example : Card.Valid [] false uses ∧ CardFaithful (fun a b => decide (∀ ρ, a.den ρ = b.den ρ)) ∧
    ((driverOps uses).map fun o => (o, con)).map (·.1) = driverOps uses ∧ (driverOps uses).length = 1433 := by
  refine ⟨⟨by decide, by decide, by decide, by decide, rfl, by decide, rfl, by simp [Val.den], rfl, rfl, by decide, rfl, by simp [Val.den], by decide, rfl, ?_, trivial⟩, ?_, ?_, ?_⟩
  · intro ρ
    change ρ 4 % 256 % 2 ^ 32 < 2 ^ 16
    omega
  · intro a b; simp
  · rw [List.map_map]; exact List.map_id _
  · decide +kernel

end CardExample

end Verif.Props
