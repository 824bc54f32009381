/-
For C67: single accesses to the card, in terms of the check of `Verif.Props.CardCheck`.
-/
import Verif.Props.CardCheck

set_option autoImplicit false

namespace Verif.Props
open Verif.Tool Verif.Tool.Registers Verif.Tool.CardSpec RegField RegWrite
namespace Card

/-! ### Reading registers -/

/-- What reading a register for the first time needs, if it has bits that are not known. -/
def initOk (w : Nat) : Nat → List Field → Bool
  | last, [] => last == w || last < w
  | last, f :: fs =>
    match f.init with
    | none => initOk w (f.stop + 1) fs
    | some i =>
      (last == f.start || (last < f.start && f.start - 1 < w)) && f.start ≤ f.stop && f.stop < w && i < 2 ^ (f.stop - f.start + 1) &&
        initOk w (f.stop + 1) fs

theorem initFields_ok (w : Nat) : ∀ (fs : List Field) (x : Val) (last : Nat), x.width = w → initOk w last fs = true →
    ∃ y last', initFields x last fs = some (y, last') ∧ y.width = w ∧ (last' = w ∨ last' < w)
  | [], x, last, hx, h => by
    simp only [initOk, Bool.or_eq_true, beq_iff_eq, decide_eq_true_eq] at h
    exact ⟨x, last, rfl, hx, h⟩
  | f :: fs, x, last, hx, h => by
    rw [initOk] at h
    rw [initFields]
    cases hi : f.init with
    | none =>
      rw [hi] at h
      exact initFields_ok w fs x _ hx h
    | some i =>
      rw [hi] at h
      simp only [Bool.and_eq_true, Bool.or_eq_true, beq_iff_eq, decide_eq_true_eq] at h
      obtain ⟨⟨⟨⟨h1, h2⟩, h3⟩, h4⟩, h5⟩ := h
      have first : ∃ y, (if last ≠ f.start then constrainField x last (f.start - 1) 0 else some x) = some y ∧ y.width = w := by
        by_cases e : last = f.start
        · exact ⟨x, by simp [e], hx⟩
        · obtain ⟨h1, h1'⟩ := h1.resolve_left e
          obtain ⟨y, hy, hyw, -⟩ := constrain_spec (x := x) (start := last) (stop := f.start - 1) (value := 0) (by omega) (by omega) (Nat.two_pow_pos _)
          exact ⟨y, by rw [if_pos e, hy], by omega⟩
      obtain ⟨y, hy, hyw⟩ := first
      obtain ⟨z, hz, hzw, -⟩ := constrain_spec (x := y) (value := i) h2 (by omega) h4
      obtain ⟨u, l', hu, huw, hul⟩ := initFields_ok w fs z _ (by omega) h5
      exact ⟨u, l', by simp only [hy, hz, hu], huw, hul⟩

theorem initSymb_ok (s : Nat) (r : Reg) (h : initOk r.length 0 r.fields = true) : ∃ v, initSymb s r = some v ∧ v.width = r.length := by
  obtain ⟨y, l', h1, h2, h3⟩ := initFields_ok r.length r.fields (.sym r.length fun ρ => ρ s) 0 rfl h
  unfold initSymb
  rw [h1]
  simp only
  by_cases e : l' = r.length
  · exact ⟨y, by simp [e], h2⟩
  · rcases h3 with h3 | h3
    · exact absurd h3 e
    · obtain ⟨z, hz, hzw, -⟩ := constrain_spec (x := y) (start := l') (stop := r.length - 1) (value := 0) (by omega) (by omega) (Nat.two_pow_pos _)
      exact ⟨z, by rw [if_pos e, hz], by omega⟩

/-- A register can be read at any time. -/
def readable (r : Reg) : Bool := (initCon r).isSome || initOk r.length 0 r.fields

theorem registers_readable : ∀ x ∈ registers, x.2.length = 32 ∧ readable x.2 = true := by decide +kernel

theorem get_mem {t : Table} {name : String} {r : Reg} (h : t.get name = some r) : (name, r) ∈ t := by
  unfold Table.get at h
  rw [Option.map_eq_some_iff] at h
  obtain ⟨x, hx, rfl⟩ := h
  have h1 := List.find?_some hx
  rw [beq_iff_eq] at h1
  subst h1
  exact List.mem_of_find?_eq_some hx

/-- Values that are read for the first time. -/
theorem fetch_new {fresh : String → Nat → Nat} {u : Bool} {st : Store} {name : String} {i : Nat} {r : Reg}
    (hr : readable r = true) (hst : st name (r.slot i) = none) :
    ∃ v, fetch fresh u st name i r = some (v, update st name i r v) ∧ v.width = r.length ∧
      (u = true → ∀ k, initValue 0 r.fields = some k → v = .bvv r.length k) ∧ (u = false → v = .sym r.length fun ρ => ρ (fresh name (r.slot i))) := by
  unfold fetch
  rw [hst]
  cases u with
  | false => exact ⟨_, rfl, rfl, by simp, fun _ => rfl⟩
  | true =>
    simp only [if_true]
    cases hc : initCon r with
    | some v =>
      simp only [initCon, Option.map_eq_some_iff] at hc
      obtain ⟨k, hk, rfl⟩ := hc
      exact ⟨_, rfl, rfl, fun _ k' hk' => by rw [hk] at hk'; cases hk'; rfl, by simp⟩
    | none =>
      simp only [readable, hc, Option.isSome_none, Bool.false_or] at hr
      obtain ⟨v, hv, hvw⟩ := initSymb_ok (fresh name (r.slot i)) r hr
      refine ⟨v, by rw [hv]; rfl, hvw, fun _ k hk => ?_, by simp⟩
      simp [initCon, hk] at hc

/-! ### Devices -/

/-- The action has no effect of its own. -/
def harmless (a : String) : Bool :=
  a != "Initiate Software Reset" && ((actionSpecs.find? fun s => s.name == a).map fun s => s.postcond.isEmpty) == some true

/-- Devices that occur: values have the width of their registers, except those of the base addresses. -/
structure Good (d : Device) : Prop where
  regs : ∀ n i v, d.regs n i = some v → v.width = 32
  pci : ∀ n r i v, (n, r) ∈ pciRegs → n ≠ "BAR0" → n ≠ "BAR1" → d.pci n i = some v → v.width = r.length
  latest : ∀ a, d.latest = some a → harmless a = true

theorem fetch_reg {fresh : String → Nat → Nat} {d : Device} (hd : Good d) {name : String} {r : Reg} (hr : registers.get name = some r) (i : Nat) :
    ∃ v st, fetch fresh d.useInit d.regs name i r = some (v, st) ∧ v.width = 32 ∧ st name (r.slot i) = some v ∧
      (∀ n j, ¬ (n = name ∧ j = r.slot i) → st n j = d.regs n j) ∧ Good { d with regs := st } := by
  have h32 := registers_readable _ (get_mem hr)
  cases hs : d.regs name (r.slot i) with
  | some v =>
    refine ⟨v, d.regs, by simp [fetch, hs], hd.regs _ _ _ hs, hs, fun _ _ _ => rfl, hd⟩
  | none =>
    obtain ⟨v, h1, h2, -⟩ := fetch_new (fresh := fresh) (u := d.useInit) (i := i) h32.2 hs
    refine ⟨v, _, h1, h2.trans h32.1, by simp [update], fun n j hn => by simp [update, hn], ⟨?_, hd.pci, hd.latest⟩⟩
    intro n j w hw
    simp only [update] at hw
    split at hw
    · cases hw; exact h2.trans h32.1
    · exact hd.regs _ _ _ hw

theorem fetch_stored {fresh : String → Nat → Nat} {u : Bool} {st : Store} {name : String} {i : Nat} {r : Reg} {v : Val} (h : st name (r.slot i) = some v) :
    fetch fresh u st name i r = some (v, st) := by
  simp [fetch, h]

theorem good_update {d : Device} (hd : Good d) {name : String} {i : Nat} {r : Reg} {v : Val} (hv : v.width = 32) :
    Good { d with regs := update d.regs name i r v } := by
  refine ⟨?_, hd.pci, hd.latest⟩
  intro n j w hw
  simp only [update] at hw
  split at hw
  · cases hw; exact hv
  · exact hd.regs _ _ _ hw

/-! ### Writing registers -/

theorem find_action (a : String) : (actions.find? fun x => x.name == a) = (actionSpecs.find? fun x => x.name == a).map ActSpec.toAction := by
  unfold actions
  rw [List.find?_map]
  rfl

theorem harmless_find {a : String} (h : harmless a = true) : ∃ x, (actions.find? fun x => x.name == a) = some x ∧ x.postcond = [] := by
  simp only [harmless, Bool.and_eq_true, beq_iff_eq, Option.map_eq_some_iff, List.isEmpty_iff] at h
  obtain ⟨-, s, hs, hp⟩ := h
  rw [find_action, hs]
  exact ⟨_, rfl, hp⟩

/-- The outcome of a write. -/
structure Written (d : Device) (st : Store) (name : String) (i : Nat) (r : Reg) (value : Val) (reset : Bool) (d' : Device) : Prop where
  regs : d'.regs = update st name i r value
  pci : d'.pci = d.pci
  useInit : d'.useInit = (d.useInit || reset)

section Write
variable {c : Ctx} {trivially : Val → Val → Bool} {d : Device} {name : String} {i : Nat} {r : Reg} {old value : Val} {st : Store}
  {N : Known} {B : Bits} {res : List (Field × List String)}

theorem verify_ok (hsat : ∃ ρ, c.constraints ρ) (ht : CardFaithful trivially) (hacc : r.access ≠ .ro)
    (hold : old.width = 32) (hN : N.Sat c.constraints old value) (hB : Knows c i d.regs B)
    (hres : absFields name N B actionSpecs r.fields = some res) :
    ∃ l l' d1 L, findFields trivially old value r.fields = some l ∧ checkAccess r l = some l' ∧ verifyWrite c actions name i d l' = some d1 ∧
      After d L d1 ∧ (∀ a ∈ L, ∃ x ∈ res, a ∈ x.2) ∧ ∀ f a, res = [(f, [a])] → (L = [] ∨ L = [a]) ∧ (Changes f old value → L = [a]) := by
  obtain ⟨l, h1, h2, h3, h4⟩ := find_sound ht hold hN _ _ hres
  have hm := absFields_mem hres
  have hin : ∀ x ∈ l, x.1 ∈ res.map (·.1) := fun x hx => h2.subset (List.mem_map_of_mem hx)
  have hacc' : ∀ x ∈ l, x.1.access = .iw ∨ ¬ (x.1.access = .na ∨ x.1.access = .ro) := by
    intro x hx
    obtain ⟨y, hy, e⟩ := List.mem_map.1 (hin x hx)
    rw [← e]
    rcases (hm y hy).2.2 with h | h
    · exact .inl h.1
    · exact .inr h.2.1
  obtain ⟨l', g1, g2, g3⟩ := check_iw hacc' h3
  obtain ⟨d1, L, v1, v2, v3, v5, v4⟩ := verify_sound hsat hN hm l' d g3 (fun x hx => by
    have : x.1 ∈ l.map (·.1) := g2 ▸ List.mem_map_of_mem hx
    exact h2.subset this) hB
  refine ⟨l, l', { d1 with counter := d1.counter + 1 }, L, h1, ?_, ?_, ?_, v3, ?_⟩
  · unfold checkAccess
    rw [if_neg, g1]
    simp [hacc]
  · unfold verifyWrite actions
    rw [v1]; rfl
  · exact ⟨v2.regs, v2.pci, v2.useInit, v2.latest⟩
  · rintro f a rfl
    simp only [List.map_cons, List.map_nil] at h2 h4
    have hc : l'.map (·.1) = [] ∨ l'.map (·.1) = [f] := by
      rw [g2]
      cases hl : l.map (·.1) with
      | nil => exact .inl rfl
      | cons x xs =>
        rw [hl] at h2
        have h5 := h2.length_le
        have h6 := h2.subset List.mem_cons_self
        simp only [List.length_cons, List.length_nil, List.mem_singleton] at h5 h6
        have : xs = [] := List.eq_nil_of_length_eq_zero (by omega)
        exact .inr (by rw [h6, this])
    refine ⟨?_, fun hch => ?_⟩
    · rcases hc with hc | hc
      · exact .inl (v5 (List.map_eq_nil_iff.1 hc))
      · exact .inr (v4 f a rfl hc)
    · have hmem := h4 f List.mem_cons_self hch
      rw [← g2] at hmem
      rcases hc with hc | hc
      · rw [hc] at hmem; simp at hmem
      · exact v4 f a rfl hc

/-- A write all of whose possible actions have no effects. -/
theorem write_plain (hc : c.regs = registers) (hsat : ∃ ρ, c.constraints ρ) (ht : CardFaithful trivially) (hd : Good d)
    (hr : registers.get name = some r) (hacc : r.access ≠ .ro) (hf : fetch c.fresh d.useInit d.regs name i r = some (old, st))
    (hold : old.width = 32) (hN : N.Sat c.constraints old value) (hB : Knows c i st B)
    (hres : absFields name N B actionSpecs r.fields = some res) (hh : ∀ x ∈ res, ∀ a ∈ x.2, harmless a = true) :
    ∃ d', write c trivially actions d name i value = some d' ∧ Written d st name i r value false d' ∧
      ∀ a, d'.latest = some a → harmless a = true := by
  obtain ⟨l, l', d1, L, h1, h2, h3, h4, h5, -⟩ := verify_ok (d := { d with regs := st }) hsat ht hacc hold hN hB hres
  have hL : ∀ a ∈ L, harmless a = true := fun a ha => by
    obtain ⟨x, hx, hax⟩ := h5 a ha
    exact hh x hx a hax
  have hreset : L.contains "Initiate Software Reset" = false := by
    rw [← Bool.not_eq_true]
    intro h
    have := hL _ (List.contains_iff_mem.1 h)
    simp [harmless] at this
  have hu : d1.useInit = d.useInit := by rw [h4.useInit, hreset, Bool.or_false]
  have hlat : ∀ a, d1.latest = some a → harmless a = true := by
    intro a ha
    rw [h4.latest] at ha
    cases hl : L.getLast? with
    | none => rw [hl] at ha; exact hd.latest a ha
    | some b =>
      rw [hl] at ha
      cases ha
      exact hL _ (List.mem_of_getLast? hl)
  unfold write
  simp only [hc, hr, hf, h1, h2, h3]
  cases hl : d1.latest with
  | none =>
    refine ⟨_, rfl, ⟨?_, ?_, ?_⟩, ?_⟩
    · change update d1.regs name i r value = _; rw [h4.regs]
    · exact h4.pci
    · rw [Bool.or_false]; exact hu
    · intro a ha; cases ha
  | some a =>
    obtain ⟨x, hx, hp⟩ := harmless_find (hlat a hl)
    simp only [hx, hp, applyPost, Option.map_some]
    refine ⟨_, rfl, ⟨?_, ?_, ?_⟩, ?_⟩
    · change update d1.regs name i r value = _; rw [h4.regs]
    · exact h4.pci
    · rw [Bool.or_false]; exact hu
    · intro a ha; cases ha

/-- A write with one possible action, which has effects: they take place if the field changes, and perhaps otherwise. -/
theorem write_single (hc : c.regs = registers) (hsat : ∃ ρ, c.constraints ρ) (ht : CardFaithful trivially) (hd : Good d)
    (hr : registers.get name = some r) (hacc : r.access ≠ .ro) (hf : fetch c.fresh d.useInit d.regs name i r = some (old, st))
    (hold : old.width = 32) (hN : N.Sat c.constraints old value) (hB : Knows c i st B)
    {f : Field} {a : String} {s : ActSpec} (hres : absFields name N B actionSpecs r.fields = some [(f, [a])])
    (hs : (actionSpecs.find? fun x => x.name == a) = some s) :
    (¬ Changes f old value ∧ ∃ d', write c trivially actions d name i value = some d' ∧ Written d st name i r value false d' ∧
      ∀ a, d'.latest = some a → harmless a = true) ∨
    (∃ d1, Written d st name i r value (a == "Initiate Software Reset") d1 ∧
      write c trivially actions d name i value = (applyPost c i d1 s.postcond).map fun d => { d with latest := none }) := by
  obtain ⟨l, l', d1, L, h1, h2, h3, h4, -, h5⟩ := verify_ok (d := { d with regs := st }) hsat ht hacc hold hN hB hres
  obtain ⟨h5, h6⟩ := h5 f a rfl
  by_cases hL : L = [a]
  · right
    subst hL
    refine ⟨{ d1 with regs := update d1.regs name i r value }, ⟨?_, ?_, ?_⟩, ?_⟩
    · change update d1.regs name i r value = _; rw [h4.regs]
    · exact h4.pci
    · change d1.useInit = _
      rw [h4.useInit]
      change (d.useInit || [a].contains "Initiate Software Reset") = _
      congr 1
      by_cases e : a = "Initiate Software Reset"
      · rw [e]; decide
      · rw [beq_eq_false_iff_ne.2 e, ← Bool.not_eq_true, List.contains_iff_mem, List.mem_singleton]
        exact fun h => e h.symm
    · unfold write
      have hlat : d1.latest = some a := by rw [h4.latest]; rfl
      have hfa : (actions.find? fun x => x.name == a) = some s.toAction := by rw [find_action, hs]; rfl
      simp only [hc, hr, hf, h1, h2, h3, hlat, hfa]
      rfl
  · left
    refine ⟨fun h => hL (h6 h), ?_⟩
    obtain rfl := h5.resolve_right hL
    have hlat : d1.latest = d.latest := h4.latest
    have hu : d1.useInit = d.useInit := by rw [h4.useInit]; exact Bool.or_false _
    unfold write
    simp only [hc, hr, hf, h1, h2, h3]
    cases hl : d1.latest with
    | none =>
      refine ⟨_, rfl, ⟨?_, ?_, ?_⟩, ?_⟩
      · change update d1.regs name i r value = _; rw [h4.regs]
      · exact h4.pci
      · rw [Bool.or_false]; exact hu
      · intro a ha; cases ha
    | some a =>
      obtain ⟨x, hx, hp⟩ := harmless_find (hd.latest a (hlat ▸ hl))
      simp only [hx, hp, applyPost, Option.map_some]
      refine ⟨_, rfl, ⟨?_, ?_, ?_⟩, ?_⟩
      · change update d1.regs name i r value = _; rw [h4.regs]
      · exact h4.pci
      · rw [Bool.or_false]; exact hu
      · intro a ha; cases ha

end Write

/-! ### Addresses -/

def bare (x : String × Reg) : String × Reg := (x.1, ⟨x.2.addr, 32, .rw, []⟩)

theorem registers_bare : registers.map bare = intel82599 := by
  have h : registers.map (fun x => (x.1, x.2.addr)) = addresses := by decide +kernel
  unfold intel82599
  rw [← h, List.map_map]
  rfl

theorem search_bare (a : Nat) : ∀ t : Table, (∀ x ∈ t, x.2.length = 32) → search a (t.map bare) = search a t
  | [], _ => rfl
  | x :: t, h => by
    rw [List.map_cons, search, search, search_bare a t fun y hy => h y (List.mem_cons_of_mem _ hy)]
    simp only [bare, h x List.mem_cons_self]

theorem findReg_bare (a : Nat) (t : Table) (h : ∀ x ∈ t, x.2.length = 32) : findReg (t.map bare) a = findReg t a := by
  unfold findReg cached entries
  rw [List.flatMap_map, search_bare a t h]
  rfl

theorem find_reg {name : String} {r : Reg} {n a : Nat} (hr : registers.get name = some r) (hi : Reg.InstanceAt r n a) :
    findReg registers a = some (name, n) := by
  rw [← findReg_bare a registers fun x hx => (registers_readable x hx).1, registers_bare]
  refine C53_intel name (bare (name, r)).2 n a ?_ hi
  rw [← registers_bare]
  exact List.mem_map_of_mem (f := bare) (get_mem hr)

/-! ### Accesses -/

/-- The registers by name. -/
def reg (name : String) : Reg := (registers.get name).getD ⟨[], 0, .na, []⟩

theorem get_reg {name : String} (h : (registers.get name).isSome = true) : registers.get name = some (reg name) := by
  unfold reg
  cases hr : registers.get name with
  | none => rw [hr] at h; cases h
  | some r => rfl

/-- What does not change, and is assumed of the tool. -/
structure Setting (c : Ctx) (trivially : Val → Val → Bool) : Prop where
  regs : c.regs = registers
  pci : c.pci = pciRegs
  sat : ∃ ρ, c.constraints ρ
  faithful : CardFaithful trivially

/-- A device after an access that may change the registers in `S`. -/
structure Step (d : Device) (S : List (String × Nat)) (d' : Device) : Prop where
  good : Good d'
  useInit : d'.useInit = d.useInit
  frame : ∀ n k, (n, k) ∉ S → d'.regs n k = d.regs n k

theorem Step.trans {d d' d'' : Device} {S S' : List (String × Nat)} (h : Step d S d') (h' : Step d' S' d'') : Step d (S ++ S') d'' :=
  ⟨h'.good, h'.useInit.trans h.useInit, fun n k hn => by
    simp only [List.mem_append, not_or] at hn
    rw [h'.frame n k hn.2, h.frame n k hn.1]⟩

/-- A bit of a stored value. -/
def BitIs (d : Device) (n : String) (k j : Nat) (b : Bool) : Prop := ∃ v, d.regs n k = some v ∧ ∀ ρ, (v.den ρ).testBit j = b

theorem BitIs.frame {d d' : Device} {S : List (String × Nat)} (h : Step d S d') {n : String} {k j : Nat} {b : Bool} (hb : BitIs d n k j b)
    (hn : (n, k) ∉ S) : BitIs d' n k j b := by
  obtain ⟨v, h1, h2⟩ := hb
  exact ⟨v, by rw [h.frame n k hn, h1], h2⟩

theorem Knows.mono {c : Ctx} {i : Nat} {R R' : Store} {B : Bits} (h : Knows c i R B) (hR : ∀ n k v, R n k = some v → R' n k = some v) :
    Knows c i R' B := by
  intro e he
  obtain ⟨r, f, v, h1, h2, h3, h4, h5⟩ := h e he
  exact ⟨r, f, v, h1, h2, h3, hR _ _ _ h4, h5⟩

/-- The field is bit `j` of the register. -/
def bitAt (n g : String) (j : Nat) : Bool :=
  match (reg n).field g with
  | some f => f.start == j && f.stop == j && decide (j < 32) && (registers.get n).isSome
  | none => false

theorem knows_nil {c : Ctx} {i : Nat} {R : Store} : Knows c i R [] := by
  intro e he
  cases he

theorem knows_cons {c : Ctx} {trivially : Val → Val → Bool} (hc : Setting c trivially) {i : Nat} {d : Device} (hd : Good d) {B : Bits} {n g : String} {j : Nat}
    {b : Bool} (hg : bitAt n g j = true) (hb : BitIs d n ((reg n).slot i) j b) (hB : Knows c i d.regs B) : Knows c i d.regs ((n, g, b) :: B) := by
  intro e he
  rcases List.mem_cons.1 he with rfl | he
  · unfold bitAt at hg
    cases hf : (reg n).field g with
    | none => rw [hf] at hg; cases hg
    | some f =>
      rw [hf] at hg
      simp only [Bool.and_eq_true, beq_iff_eq, decide_eq_true_eq] at hg
      obtain ⟨⟨⟨h1, h2⟩, h3⟩, h4⟩ := hg
      obtain ⟨v, hv, hvb⟩ := hb
      refine ⟨reg n, f, v, by rw [hc.regs]; exact get_reg h4, hf, by omega, hv, by rw [hd.regs _ _ _ hv]; omega, fun ρ => by rw [h1]; exact hvb ρ⟩
  · exact hB e he

/-- The register is at the address. -/
structure Locate (a : Nat) (name : String) (i : Nat) : Prop where
  found : findReg registers a = some (name, i)
  known : registers.get name = some (reg name)

theorem locate {a : Nat} {name : String} {i : Nat} (h : (registers.get name).isSome = true) (hi : Reg.InstanceAt (reg name) i a) : Locate a name i :=
  ⟨find_reg (get_reg h) hi, get_reg h⟩

section Ops
variable {c : Ctx} {trivially : Val → Val → Bool} {d : Device} {a i : Nat} {name : String}

theorem read_ok (hc : Setting c trivially) (hd : Good d) (ha : Locate a name i) :
    ∃ v d', CardSpec.read c d a = some (v, d') ∧ Step d [(name, (reg name).slot i)] d' ∧ d'.regs name ((reg name).slot i) = some v ∧ v.width = 32 ∧
      (∀ n k w, d.regs n k = some w → d'.regs n k = some w) ∧ d'.pci = d.pci ∧
      fetch c.fresh d.useInit d.regs name i (reg name) = some (v, d'.regs) := by
  obtain ⟨v, st, h1, h2, h3, h4, h5⟩ := fetch_reg (fresh := c.fresh) hd ha.known i
  refine ⟨v, { d with regs := st }, ?_, ⟨h5, rfl, fun n k hn => h4 n k (by simpa using hn)⟩, h3, h2, ?_, rfl, h1⟩
  · simp only [CardSpec.read, hc.regs, ha.found, ha.known, h1, Option.map_some]
  · intro n k w hw
    by_cases e : n = name ∧ k = (reg name).slot i
    · obtain ⟨rfl, rfl⟩ := e
      have : fetch c.fresh d.useInit d.regs n i (reg n) = some (w, d.regs) := fetch_stored hw
      rw [this] at h1
      cases h1
      exact hw
    · change st n k = some w
      rw [h4 n k e, hw]

/-- The first value of a register that is read after the reset. -/
theorem read_new (ha : Locate a name i) {v : Val} {st : Store} (hf : fetch c.fresh d.useInit d.regs name i (reg name) = some (v, st))
    (hn : d.regs name ((reg name).slot i) = none) :
    (d.useInit = true → ∀ k, initValue 0 (reg name).fields = some k → v = .bvv 32 k) ∧
      (d.useInit = false → v = .sym 32 fun ρ => ρ (c.fresh name ((reg name).slot i))) := by
  have h32 := registers_readable _ (get_mem ha.known)
  obtain ⟨w, h1, -, h2, h3⟩ := fetch_new (fresh := c.fresh) (u := d.useInit) (i := i) h32.2 hn
  rw [hf] at h1
  cases h1
  rw [h32.1] at h2 h3
  exact ⟨h2, h3⟩

/-- What is known of a modified value. -/
def modKnown (m n : BitVec 32) : Known := ⟨(m &&& ~~~n).toNat, n.toNat, (~~~m &&& ~~~n).toNat, 0⟩

theorem modified_width (m n : BitVec 32) (v : Val) : (modified m n v).width = v.width := by cases v <;> rfl

theorem modified_bit (m n : BitVec 32) {v : Val} (hv : v.width = 32) (ρ : Env) (j : Nat) :
    ((modified m n v).den ρ).testBit j = ((v.den ρ).testBit j && !m.getLsbD j || n.getLsbD j) := by
  have key : ∀ x : Nat, x < 2 ^ 32 → (replace m n x % 2 ^ 32).testBit j = (x.testBit j && !m.getLsbD j || n.getLsbD j) := by
    intro x hx
    unfold replace
    rw [Nat.mod_eq_of_lt (BitVec.isLt _), BitVec.testBit_toNat]
    simp only [BitVec.getLsbD_or, BitVec.getLsbD_and, BitVec.getLsbD_not, BitVec.getLsbD_ofNat]
    by_cases hj : j < 32
    · simp [hj]
    · rw [Nat.testBit_lt_two_pow (Nat.lt_of_lt_of_le hx (Nat.pow_le_pow_right (by decide) (by omega : 32 ≤ j)))]
      simp
  cases v with
  | bvv w x =>
    obtain rfl : w = 32 := hv
    exact key _ (Nat.mod_lt _ (Nat.two_pow_pos _))
  | sym w f =>
    obtain rfl : w = 32 := hv
    exact key _ (Nat.mod_lt _ (Nat.two_pow_pos _))

theorem modKnown_sat (con : Env → Prop) (m n : BitVec 32) {v : Val} (hv : v.width = 32) : (modKnown m n).Sat con v (modified m n v) := by
  refine ⟨(modified_width m n v).trans hv, fun j ρ h => ?_, fun j ρ h => ?_, fun j ρ h => ?_, fun j ρ _ h => ?_⟩
  · rw [modified_bit m n hv]
    simp only [modKnown, BitVec.testBit_toNat, BitVec.getLsbD_and, BitVec.getLsbD_not, Bool.and_eq_true, Bool.not_eq_true', decide_eq_true_eq] at h
    simp [h.1, h.2.2]
  · rw [modified_bit m n hv]
    simp only [modKnown, BitVec.testBit_toNat] at h
    simp [h]
  · rw [modified_bit m n hv]
    simp only [modKnown, BitVec.testBit_toNat, BitVec.getLsbD_and, BitVec.getLsbD_not, Bool.and_eq_true, Bool.not_eq_true', decide_eq_true_eq] at h
    simp [h.1.2, h.2.2]
  · simp [modKnown] at h

/-- The check of a write without effects. -/
def plainOk (name : String) (N : Known) (B : Bits) : Bool := (reg name).access != .ro &&
  match absFields name N B actionSpecs (reg name).fields with
  | some res => res.all fun x => x.2.all harmless
  | none => false

theorem write_plain_ok (hc : Setting c trivially) (hd : Good d) (ha : Locate a name i) {value : Val} {N : Known} {B : Bits}
    (hN : ∀ old st, old.width = 32 → fetch c.fresh d.useInit d.regs name i (reg name) = some (old, st) → N.Sat c.constraints old value)
    (hB : Knows c i d.regs B) (hp : plainOk name N B = true) :
    ∃ d', writeAt c trivially d a value = some d' ∧ Step d [(name, (reg name).slot i)] d' ∧ d'.regs name ((reg name).slot i) = some value := by
  obtain ⟨v, d1, -, s1, -, hv, hm, -, hf⟩ := read_ok hc hd ha
  have hN := hN v _ hv hf
  simp only [plainOk, Bool.and_eq_true, bne_iff_ne] at hp
  obtain ⟨hacc, hp⟩ := hp
  cases hres : absFields name N B actionSpecs (reg name).fields with
  | none => rw [hres] at hp; cases hp
  | some res =>
    rw [hres] at hp
    simp only [List.all_eq_true] at hp
    obtain ⟨d', h1, h2, h3⟩ := write_plain hc.regs hc.sat hc.faithful hd ha.known hacc hf hv hN (hB.mono hm) hres hp
    refine ⟨d', ?_, ⟨⟨?_, ?_, h3⟩, ?_, ?_⟩, ?_⟩
    · simp only [writeAt, hc.regs, ha.found, h1]
    · intro n k w hw
      rw [h2.regs] at hw
      simp only [update] at hw
      split at hw
      · cases hw; exact hN.width
      · exact s1.good.regs n k w hw
    · rw [h2.pci]; exact hd.pci
    · rw [h2.useInit, Bool.or_false]
    · intro n k hn
      rw [h2.regs]
      simp only [List.mem_singleton, Prod.mk.injEq] at hn
      simp only [update, if_neg hn]
      exact s1.frame n k (by simpa using hn)
    · rw [h2.regs]; simp [update]

theorem modify_plain_ok (hc : Setting c trivially) (hd : Good d) (ha : Locate a name i) {m n : BitVec 32} {B : Bits}
    (hB : Knows c i d.regs B) (hp : plainOk name (modKnown m n) B = true) :
    ∃ d' old, step c trivially d (.modify a m n) = some d' ∧ Step d [(name, (reg name).slot i)] d' ∧
      d'.regs name ((reg name).slot i) = some (modified m n old) ∧ old.width = 32 ∧
      ∃ st, fetch c.fresh d.useInit d.regs name i (reg name) = some (old, st) := by
  obtain ⟨v, d1, h1, s1, hst, hv, hm, -, hf⟩ := read_ok hc hd ha
  obtain ⟨d', h2, s2, h3⟩ := write_plain_ok (value := modified m n v) hc s1.good ha (fun old st how hf' => by
    rw [fetch_stored hst] at hf'
    cases hf'
    exact modKnown_sat _ m n hv) (hB.mono hm) hp
  refine ⟨d', v, by simp only [step, h1, h2], ?_, h3, hv, _, hf⟩
  have := s1.trans s2
  exact ⟨this.good, this.useInit, fun n k hn => this.frame n k (by simpa using hn)⟩

/-- The check of a write with one action that has effects. -/
def singleOk (name : String) (N : Known) (B : Bits) (j : Nat) (action : String) : Bool := (reg name).access != .ro &&
  match absFields name N B actionSpecs (reg name).fields with
  | some [(f, [x])] => x == action && f.start == j && f.stop == j
  | _ => false

theorem single_fields {N : Known} {B : Bits} {action : String} {j : Nat} (h : singleOk name N B j action = true) :
    (reg name).access ≠ .ro ∧ ∃ f, absFields name N B actionSpecs (reg name).fields = some [(f, [action])] ∧ f.start = j ∧ f.stop = j := by
  unfold singleOk at h
  rw [Bool.and_eq_true, bne_iff_ne] at h
  refine ⟨h.1, ?_⟩
  have h2 := h.2
  split at h2
  · rename_i f x hx
    simp only [Bool.and_eq_true, beq_iff_eq] at h2
    obtain ⟨⟨rfl, e1⟩, e2⟩ := h2
    exact ⟨f, hx, e1, e2⟩
  · cases h2

theorem changeField_latest (c : Ctx) (d : Device) (reg field : String) (index new : Nat) :
    changeField c { d with latest := none } reg field index new = (changeField c d reg field index new).map fun d => { d with latest := none } := by
  unfold changeField
  cases c.regs.get reg with
  | some r =>
    simp only
    cases fetch c.fresh d.useInit d.regs reg index r with
    | none => rfl
    | some x =>
      cases r.field field with
      | none => rfl
      | some f => simp only; cases withField x.1 f r.length new <;> rfl
  | none =>
    simp only
    cases c.pci.get reg with
    | none => rfl
    | some r =>
      simp only
      cases fetch c.freshPci d.useInit d.pci reg index r with
      | none => rfl
      | some x =>
        cases r.field field with
        | none => rfl
        | some f => simp only; cases withField x.1 f r.length new <;> rfl

theorem applyPost_latest (c : Ctx) (index : Nat) : ∀ (l : List (String × String × Nat)) (d : Device),
    (applyPost c index d l).map (fun d => { d with latest := none }) = applyPost c index { d with latest := none } l
  | [], d => rfl
  | (r, f, v) :: l, d => by
    rw [applyPost, applyPost, changeField_latest]
    cases changeField c d r f index v with
    | none => rfl
    | some d' => exact applyPost_latest c index l d'

/-- A modification with one action that has effects: until they take place. -/
theorem modify_single_ok (hc : Setting c trivially) (hd : Good d) (ha : Locate a name i) {m n : BitVec 32} {B : Bits} {action : String} {j : Nat} {s : ActSpec}
    (hB : Knows c i d.regs B) (hp : singleOk name (modKnown m n) B j action = true)
    (hs : (actionSpecs.find? fun x => x.name == action) = some s) :
    ∃ old st, fetch c.fresh d.useInit d.regs name i (reg name) = some (old, st) ∧ old.width = 32 ∧
      ∃ d1, Good d1 ∧ d1.pci = d.pci ∧ d1.regs name ((reg name).slot i) = some (modified m n old) ∧
        (∀ n k, ¬ (n = name ∧ k = (reg name).slot i) → d1.regs n k = d.regs n k) ∧
        (((∀ ρ, (old.den ρ).testBit j = ((modified m n old).den ρ).testBit j) ∧ d1.useInit = d.useInit ∧
            step c trivially d (.modify a m n) = some d1) ∨
          (d1.useInit = (d.useInit || action == "Initiate Software Reset") ∧
            step c trivially d (.modify a m n) = applyPost c i d1 s.postcond)) := by
  obtain ⟨v, d0, h1, s1, hst, hv, hm, hpci, hf⟩ := read_ok hc hd ha
  obtain ⟨hacc, f, hres, hf1, hf2⟩ := single_fields hp
  have hw : (modified m n v).width = 32 := (modified_width m n v).trans hv
  have hwr : writeAt c trivially d0 a (modified m n v) = write c trivially actions d0 name i (modified m n v) := by
    simp only [writeAt, hc.regs, ha.found]
  have hst' : step c trivially d (.modify a m n) = write c trivially actions d0 name i (modified m n v) := by
    simp only [step, h1, hwr]
  have hgood : ∀ (b : Bool) (d1 : Device), Written d0 d0.regs name i (reg name) (modified m n v) b d1 →
      (∀ n k w, d1.regs n k = some w → w.width = 32) ∧ d1.pci = d.pci ∧ d1.regs name ((reg name).slot i) = some (modified m n v) ∧
        (∀ n k, ¬ (n = name ∧ k = (reg name).slot i) → d1.regs n k = d.regs n k) := by
    intro b d1 hd1
    refine ⟨?_, by rw [hd1.pci, hpci], by rw [hd1.regs]; simp [update], ?_⟩
    · intro n k w hww
      rw [hd1.regs] at hww
      simp only [update] at hww
      split at hww
      · cases hww; exact hw
      · exact s1.good.regs n k w hww
    · intro n k hn
      rw [hd1.regs]
      simp only [update, if_neg hn]
      exact s1.frame n k (by simpa using hn)
  refine ⟨v, d0.regs, hf, hv, ?_⟩
  rcases write_single hc.regs hc.sat hc.faithful s1.good ha.known hacc (fetch_stored hst) hv (modKnown_sat c.constraints m n hv) (hB.mono hm) hres hs with
    ⟨hch, d', h3, h4, h5⟩ | ⟨d1, h4, h5⟩
  · obtain ⟨g1, g2, g3, g4⟩ := hgood _ _ h4
    refine ⟨d', ⟨g1, by rw [g2]; exact hd.pci, h5⟩, g2, g3, g4, .inl ⟨fun ρ => ?_, by rw [h4.useInit, Bool.or_false, s1.useInit], by rw [hst', h3]⟩⟩
    by_contra hne
    exact hch ⟨ρ, j, by omega, by omega, fun e => hne e.symm⟩
  · obtain ⟨g1, g2, g3, g4⟩ := hgood _ _ h4
    refine ⟨{ d1 with latest := none }, ⟨g1, by rw [g2]; exact hd.pci, by simp⟩, g2, g3, g4, .inr ⟨?_, ?_⟩⟩
    · change d1.useInit = _
      rw [h4.useInit, s1.useInit]
    · rw [hst', h5, applyPost_latest]

end Ops

end Card
end Verif.Props
