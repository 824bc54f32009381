/-
C17: PCI configuration accesses.
-/
import Verif.Tool.Pci
import Mathlib.Data.List.Induction

set_option autoImplicit false

namespace Verif.Props
open Verif.Tool.Pci

/-- `d` is the last address written in the history, with no merge of states since. -/
def LastAddress (hist : List Op) (d : BitVec 32) (since : List Op) : Prop :=
  ∃ before, hist = before ++ Op.out 0xCF8 d 4 :: since ∧ (∀ op ∈ since, op ≠ .merge ∧ ∀ d' n, op ≠ .out 0xCF8 d' n)

/-- `d` is the last address written, and it was flushed since. -/
def Flushed (hist : List Op) (d : BitVec 32) : Prop :=
  ∃ since, LastAddress hist d since ∧ ∃ d' n, Op.out 0x80 d' n ∈ since

/-- The address that a 32-bit number denotes on the PCI bus. -/
def Denotes (d : BitVec 32) (a : Address) : Prop :=
  a.bus.toNat = d.toNat / 2 ^ 16 % 2 ^ 8 ∧ a.device.toNat = d.toNat / 2 ^ 11 % 2 ^ 5 ∧
  a.function.toNat = d.toNat / 2 ^ 8 % 2 ^ 3 ∧ a.register.toNat = d.toNat % 2 ^ 8

theorem xor_top_extract (d : BitVec 32) (i w : Nat) (h : i + w ≤ 31) :
    (d ^^^ 0x80000000#32).extractLsb' i w = d.extractLsb' i w := by
  apply BitVec.eq_of_getLsbD_eq
  intro j hj
  have hb : (0x80000000#32).getLsbD (i + j) = false := by
    rw [show (0x80000000#32) = BitVec.ofNat 32 (2 ^ 31) from rfl, BitVec.getLsbD_ofNat]
    rw [Nat.testBit_two_pow]
    simp; omega
  simp only [BitVec.getLsbD_extractLsb', BitVec.getLsbD_xor, hb, Bool.xor_false]

theorem parse_denotes (d : BitVec 32) : Denotes d (parseAddress d) := by
  simp only [Denotes, parseAddress, xor_top_extract d 16 8 (by omega), xor_top_extract d 11 5 (by omega),
    xor_top_extract d 8 3 (by omega), xor_top_extract d 0 8 (by omega), BitVec.extractLsb'_toNat, Nat.shiftRight_eq_div_pow]
  simp

theorem run_append (s : State) (xs : List Op) (op : Op) {s'' : State} {es : List Event} (h : run s (xs ++ [op]) = some (s'', es)) :
    ∃ s' es' e, run s xs = some (s', es') ∧ step s' op = some (s'', e) ∧ es = es' ++ e.toList := by
  induction xs generalizing s es with
  | nil =>
    simp only [List.nil_append, run, Option.bind_eq_bind, Option.bind_eq_some_iff, Prod.exists, Option.some.injEq, Prod.mk.injEq] at h
    obtain ⟨s1, e1, h1, _, _, ⟨rfl, rfl⟩, rfl, rfl⟩ := h
    exact ⟨s, [], e1, rfl, h1, by simp⟩
  | cons x xs ih =>
    simp only [List.cons_append, run, Option.bind_eq_bind, Option.bind_eq_some_iff, Prod.exists, Option.some.injEq, Prod.mk.injEq] at h ⊢
    obtain ⟨s1, e1, h1, s2, es2, h2, rfl, rfl⟩ := h
    obtain ⟨s', es', e, g1, g2, rfl⟩ := ih s1 h2
    exact ⟨s', e1.toList ++ es', e, ⟨s1, e1, h1, s', es', g1, rfl, rfl⟩, g2, by simp⟩

theorem lastAddress_snoc {hist : List Op} {op : Op} {d : BitVec 32} {since : List Op} :
    LastAddress (hist ++ [op]) d since ↔
      (since = [] ∧ op = .out 0xCF8 d 4) ∨
      ∃ since', since = since' ++ [op] ∧ LastAddress hist d since' ∧ op ≠ .merge ∧ ∀ d' n, op ≠ .out 0xCF8 d' n := by
  constructor
  · rintro ⟨before, heq, hq⟩
    rcases List.eq_nil_or_concat since with rfl | ⟨since', x, rfl⟩
    · left
      have := List.append_inj' heq (by simp)
      simp only [List.cons.injEq, and_true] at this
      exact ⟨rfl, this.2⟩
    · right
      have h2 : hist ++ [op] = (before ++ Op.out 0xCF8 d 4 :: since') ++ [x] := by rw [heq]; simp
      have := List.append_inj' h2 (by simp)
      simp only [List.cons.injEq, and_true] at this
      obtain ⟨h3, rfl⟩ := this
      exact ⟨since', by simp, ⟨before, h3, fun o ho => hq o (by simp [ho])⟩, hq op (by simp)⟩
  · rintro (⟨rfl, rfl⟩ | ⟨since', rfl, ⟨before, rfl, hq⟩, h1, h2⟩)
    · exact ⟨hist, by simp, by simp⟩
    · refine ⟨before, by simp, fun o ho => ?_⟩
      rcases List.mem_append.1 ho with ho | ho
      · exact hq o ho
      · simp only [List.mem_singleton] at ho; subst ho; exact ⟨h1, h2⟩

/-- What the plugin's state says about the history. -/
structure Tracks (hist : List Op) (s : State) : Prop where
  address : ∀ a, s.address = some a ↔ ∃ d since, LastAddress hist d since ∧ a = parseAddress d
  flushed : s.flushed = true ↔ ∃ d, Flushed hist d
  some_of_flushed : s.flushed = true → s.address ≠ none

theorem lastAddress_unique {hist : List Op} {d d' : BitVec 32} {t t' : List Op} (h : LastAddress hist d t) (h' : LastAddress hist d' t') : d = d' ∧ t = t' := by
  induction hist using List.reverseRecOn generalizing t t' with
  | nil => obtain ⟨b, h, _⟩ := h; simp at h
  | append_singleton hist op ih =>
    rcases lastAddress_snoc.1 h with ⟨rfl, rfl⟩ | ⟨u, rfl, hu, h1, h2⟩ <;>
      rcases lastAddress_snoc.1 h' with ⟨rfl, h3⟩ | ⟨u', rfl, hu', h3, h4⟩
    · simp at h3; exact ⟨h3, rfl⟩
    · exact absurd rfl (h4 d 4)
    · exact absurd h3 (h2 d' 4)
    · obtain ⟨rfl, rfl⟩ := ih hu hu'
      exact ⟨rfl, rfl⟩

theorem tracks_run (hist : List Op) : ∀ s es, run {} hist = some (s, es) → Tracks hist s := by
  induction hist using List.reverseRecOn with
  | nil =>
    intro s es h
    simp only [run, Option.some.injEq, Prod.mk.injEq] at h
    obtain ⟨rfl, _⟩ := h
    refine ⟨?_, ?_, by simp⟩
    · intro a
      simp only [reduceCtorEq, false_iff]
      rintro ⟨d, t, ⟨b, h, _⟩, _⟩; simp at h
    · simp only [Bool.false_eq_true, false_iff]
      rintro ⟨d, t, ⟨b, h, _⟩, _⟩; simp at h
  | append_singleton hist op ih =>
    intro s'' es h
    obtain ⟨s, es', e, h1, h2, rfl⟩ := run_append {} hist op h
    have ih := ih s es' h1
    -- an operation that keeps the address
    have keep : (op ≠ .merge ∧ ∀ d' n, op ≠ .out 0xCF8 d' n) → s''.address = s.address →
        (s''.flushed = true ↔ s.flushed = true ∨ ((∃ d n, op = .out 0x80 d n) ∧ s.address ≠ none)) → Tracks (hist ++ [op]) s'' := by
      rintro ⟨hm, ho⟩ hadr hfl
      have hla : ∀ d t, LastAddress (hist ++ [op]) d t ↔ ∃ t', t = t' ++ [op] ∧ LastAddress hist d t' := by
        intro d t
        rw [lastAddress_snoc]
        constructor
        · rintro (⟨_, h⟩ | ⟨t', rfl, h, _⟩)
          · exact absurd h (ho d 4)
          · exact ⟨t', rfl, h⟩
        · rintro ⟨t', rfl, h⟩
          exact .inr ⟨t', rfl, h, hm, ho⟩
      refine ⟨?_, ?_, ?_⟩
      · intro a
        rw [hadr, ih.address]
        constructor
        · rintro ⟨d, t, hl, rfl⟩
          exact ⟨d, t ++ [op], (hla _ _).2 ⟨t, rfl, hl⟩, rfl⟩
        · rintro ⟨d, t, hl, rfl⟩
          obtain ⟨t', rfl, hl2⟩ := (hla _ _).1 hl
          exact ⟨d, t', hl2, rfl⟩
      · rw [hfl, ih.flushed]
        constructor
        · rintro (⟨d, t, hl, d', n, hmem⟩ | ⟨⟨d', n, rfl⟩, hne⟩)
          · exact ⟨d, t ++ [op], (hla _ _).2 ⟨t, rfl, hl⟩, d', n, by simp [hmem]⟩
          · obtain ⟨a, ha⟩ := Option.ne_none_iff_exists'.1 hne
            obtain ⟨d, t, hl, _⟩ := (ih.address a).1 ha
            exact ⟨d, t ++ [.out 0x80 d' n], (hla _ _).2 ⟨t, rfl, hl⟩, d', n, by simp⟩
        · rintro ⟨d, t, hl, d', n, hmem⟩
          obtain ⟨t', rfl, hl2⟩ := (hla _ _).1 hl
          rcases List.mem_append.1 hmem with hmem | hmem
          · exact .inl ⟨d, t', hl2, d', n, hmem⟩
          · refine .inr ⟨⟨d', n, by simpa using (List.mem_singleton.1 hmem).symm⟩, ?_⟩
            have := (ih.address (parseAddress d)).2 ⟨d, t', hl2, rfl⟩
            simp [this]
      · intro hf
        rw [hadr]
        rcases hfl.1 hf with h | h
        · exact ih.some_of_flushed h
        · exact h.2
    cases op with
    | inp port size =>
      simp only [step] at h2
      split at h2 <;> [skip; cases h2]
      split at h2 <;> [skip; cases h2]
      simp only [Option.some.injEq, Prod.mk.injEq] at h2
      obtain ⟨rfl, _⟩ := h2
      exact keep (by simp) rfl (by simp)
    | merge =>
      simp only [step, Option.some.injEq, Prod.mk.injEq] at h2
      obtain ⟨rfl, _⟩ := h2
      have hno : ∀ d t, ¬ LastAddress (hist ++ [.merge]) d t := by
        intro d t hl
        rcases lastAddress_snoc.1 hl with ⟨_, h⟩ | ⟨_, _, _, h, _⟩
        · cases h
        · exact h rfl
      refine ⟨?_, ?_, by simp⟩
      · intro a
        simp only [reduceCtorEq, false_iff]
        rintro ⟨d, t, hl, _⟩; exact hno d t hl
      · simp only [Bool.false_eq_true, false_iff]
        rintro ⟨d, t, hl, _⟩; exact hno d t hl
    | out port data size =>
      simp only [step] at h2
      split at h2
      · rename_i hp
        subst hp
        split at h2 <;> [skip; cases h2]
        rename_i hs
        subst hs
        simp only [Option.some.injEq, Prod.mk.injEq] at h2
        obtain ⟨rfl, _⟩ := h2
        have hla : LastAddress (hist ++ [.out 0xCF8 data 4]) data [] := lastAddress_snoc.2 (.inl ⟨rfl, rfl⟩)
        refine ⟨?_, ?_, by simp⟩
        · intro a
          constructor
          · intro h
            exact ⟨data, [], hla, by simpa using h.symm⟩
          · rintro ⟨d, t, hl, rfl⟩
            obtain ⟨rfl, _⟩ := lastAddress_unique hl hla
            rfl
        · simp only [Bool.false_eq_true, false_iff]
          rintro ⟨d, t, hl, d', n, hm⟩
          obtain ⟨_, rfl⟩ := lastAddress_unique hl hla
          simp at hm
      · rename_i hp1
        split at h2
        · rename_i hp
          subst hp
          simp only [Option.some.injEq, Prod.mk.injEq] at h2
          obtain ⟨h2, _⟩ := h2
          refine keep (by simp) ?_ ?_
          · rw [← h2]; split <;> rfl
          · rw [← h2]
            cases ha : s.address with
            | none => simp
            | some a => simp
        · rename_i hp2
          split at h2 <;> [skip; cases h2]
          split at h2 <;> [skip; cases h2]
          simp only [Option.some.injEq, Prod.mk.injEq] at h2
          obtain ⟨rfl, _⟩ := h2
          refine keep ⟨by simp, ?_⟩ rfl ?_
          · rintro d' n h
            simp only [Op.out.injEq] at h
            exact hp1 h.1
          · constructor
            · exact .inl
            · rintro (h | ⟨⟨d, n, h⟩, _⟩)
              · exact h
              · simp only [Op.out.injEq] at h
                exact absurd h.1 hp2

/-- After any accepted history, a configuration read is accepted exactly when an address was
written and then flushed (and no merge intervened), and then reads the denoted address. -/
theorem C17_read (hist : List Op) (s : State) (es : List Event) (h : run {} hist = some (s, es)) (port size : Nat) :
    (∀ s' e, step s (.inp port size) = some (s', e) → port = 0xCFC ∧ s' = s ∧ ∃ d a, Flushed hist d ∧ Denotes d a ∧ e = some (.read a)) ∧
    (port = 0xCFC → (∃ d, Flushed hist d) → ∃ e, step s (.inp port size) = some (s, e)) := by
  have ht := tracks_run hist s es h
  constructor
  · intro s' e hs
    simp only [step] at hs
    split at hs <;> [skip; cases hs]
    rename_i hp
    split at hs <;> [skip; cases hs]
    rename_i a hf ha
    simp only [Option.some.injEq, Prod.mk.injEq] at hs
    obtain ⟨rfl, rfl⟩ := hs
    obtain ⟨d, t, hl, rfl⟩ := (ht.address a).1 ha
    obtain ⟨d', t', hl', hm⟩ := ht.flushed.1 hf
    obtain ⟨rfl, rfl⟩ := lastAddress_unique hl hl'
    exact ⟨hp, rfl, d, _, ⟨t, hl, hm⟩, parse_denotes d, rfl⟩
  · intro hp hfl
    have hf := ht.flushed.2 hfl
    obtain ⟨a, ha⟩ := Option.ne_none_iff_exists'.1 (ht.some_of_flushed hf)
    exact ⟨_, by simp only [step, hp, if_pos, hf, ha]; rfl⟩

/-- The same for writes; writes to the address and flush ports produce no event, and every other
port is rejected. -/
theorem C17_write (hist : List Op) (s : State) (es : List Event) (h : run {} hist = some (s, es)) (port : Nat) (data : BitVec 32) (size : Nat) :
    (∀ s' e, step s (.out port data size) = some (s', some e) →
      port = 0xCFC ∧ s' = s ∧ ∃ d a, Flushed hist d ∧ Denotes d a ∧ e = .write a data size) ∧
    (port = 0xCFC → ((∃ d, Flushed hist d) ↔ step s (.out port data size) ≠ none)) ∧
    (step s (.out port data size) ≠ none → port = 0xCF8 ∨ port = 0x80 ∨ port = 0xCFC) := by
  have ht := tracks_run hist s es h
  refine ⟨?_, ?_, ?_⟩
  · intro s' e hs
    simp only [step] at hs
    split at hs
    · split at hs <;> simp at hs
    · split at hs
      · simp at hs
      · split at hs <;> [skip; cases hs]
        rename_i hp
        split at hs <;> [skip; cases hs]
        rename_i a hf ha
        simp only [Option.some.injEq, Prod.mk.injEq] at hs
        obtain ⟨rfl, rfl⟩ := hs
        obtain ⟨d, t, hl, rfl⟩ := (ht.address a).1 ha
        obtain ⟨d', t', hl', hm⟩ := ht.flushed.1 hf
        obtain ⟨rfl, rfl⟩ := lastAddress_unique hl hl'
        exact ⟨hp, rfl, d, _, ⟨t, hl, hm⟩, parse_denotes d, rfl⟩
  · rintro rfl
    constructor
    · intro hfl
      have hf := ht.flushed.2 hfl
      obtain ⟨a, ha⟩ := Option.ne_none_iff_exists'.1 (ht.some_of_flushed hf)
      simp [step, hf, ha]
    · intro hne
      refine ht.flushed.1 ?_
      cases hf : s.flushed with
      | true => rfl
      | false => simp [step, hf] at hne
  · intro hne
    by_contra hcon
    simp only [not_or] at hcon
    simp [step, hcon.1, hcon.2.1, hcon.2.2] at hne

theorem or_high (m n i : Nat) (h : n < 2 ^ i) : m * 2 ^ i ||| n = m * 2 ^ i + n := by
  rw [← Nat.shiftLeft_eq, Nat.shiftLeft_add_eq_or_of_lt h]

/-- The number os_pci_read and os_pci_write send. -/
theorem encode_toNat (bus device function reg : BitVec 8) (hd : device.toNat < 32) (hf : function.toNat < 8) :
    (encode bus device function reg).toNat =
      2 ^ 31 + bus.toNat * 2 ^ 16 + device.toNat * 2 ^ 11 + function.toNat * 2 ^ 8 + reg.toNat := by
  have hb := bus.isLt
  have hr := reg.isLt
  have e : ∀ (x : BitVec 8) (k : Nat), k ≤ 16 → ((x.zeroExtend 32 : BitVec 32) <<< k).toNat = x.toNat * 2 ^ k := by
    intro x k hk
    have hx := x.isLt
    rw [BitVec.toNat_shiftLeft, BitVec.toNat_setWidth, Nat.shiftLeft_eq]
    have h1 : x.toNat % 2 ^ 32 = x.toNat := Nat.mod_eq_of_lt (by omega)
    rw [h1]
    apply Nat.mod_eq_of_lt
    calc x.toNat * 2 ^ k ≤ x.toNat * 2 ^ 16 := Nat.mul_le_mul_left _ (Nat.pow_le_pow_right (by omega) hk)
      _ < 2 ^ 32 := by omega
  have er : ((reg.zeroExtend 32 : BitVec 32)).toNat = reg.toNat := by
    rw [BitVec.toNat_setWidth]; exact Nat.mod_eq_of_lt (by omega)
  simp only [encode, BitVec.toNat_or, er, e bus 16 (by omega), e device 11 (by omega), e function 8 (by omega)]
  have h0 : (0x80000000#32).toNat = 2 ^ 15 * 2 ^ 16 := by decide
  rw [h0]
  have h1 : 2 ^ 15 * 2 ^ 16 ||| bus.toNat * 2 ^ 16 = (2 ^ 15 + bus.toNat) * 2 ^ 16 := by
    have : 2 ^ 15 * 2 ^ 16 = 1 * 2 ^ 31 := by decide
    rw [this, or_high 1 (bus.toNat * 2 ^ 16) 31 (by omega)]
    omega
  have h2 : (2 ^ 15 + bus.toNat) * 2 ^ 16 ||| device.toNat * 2 ^ 11 = ((2 ^ 15 + bus.toNat) * 2 ^ 5 + device.toNat) * 2 ^ 11 := by
    rw [or_high _ _ 16 (by omega)]; omega
  have h3 : ((2 ^ 15 + bus.toNat) * 2 ^ 5 + device.toNat) * 2 ^ 11 ||| function.toNat * 2 ^ 8 =
      (((2 ^ 15 + bus.toNat) * 2 ^ 5 + device.toNat) * 2 ^ 3 + function.toNat) * 2 ^ 8 := by
    rw [or_high _ _ 11 (by omega)]; omega
  rw [h1, h2, h3, or_high _ _ 8 (by omega)]
  omega

/-- The C functions reach the handlers, from any state, with exactly the address they were given
(device below 32 and function below 8, as on every PCI bus). -/
theorem C17_c_accesses (s : State) (bus device function reg : BitVec 8) (value : BitVec 32) (hd : device.toNat < 32) (hf : function.toNat < 8) :
    ∃ s' a, a.bus.toNat = bus.toNat ∧ a.device.toNat = device.toNat ∧ a.function.toNat = function.toNat ∧ a.register.toNat = reg.toNat ∧
      run s (osPciRead bus device function reg) = some (s', [.read a]) ∧
      run s (osPciWrite bus device function reg value) = some (s', [.write a value 4]) := by
  refine ⟨⟨some (parseAddress (encode bus device function reg)), true⟩, parseAddress (encode bus device function reg), ?_⟩
  obtain ⟨h1, h2, h3, h4⟩ := parse_denotes (encode bus device function reg)
  rw [encode_toNat bus device function reg hd hf] at h1 h2 h3 h4
  have hb := bus.isLt
  have hr := reg.isLt
  refine ⟨by omega, by omega, by omega, by omega, ?_, ?_⟩
  · simp [run, osPciRead, step]
  · simp [run, osPciWrite, step]

example : ∃ s es, run {} (osPciRead 1 2 3 0x10 ++ osPciWrite 0 31 7 4 6) = some (s, es) ∧ es.length = 2 :=
  ⟨_, _, rfl, rfl⟩

/-- Reading before the flush is rejected. -/
example : run {} [.out 0xCF8 (encode 1 2 3 4) 4, .inp 0xCFC 4] = none := rfl

end Verif.Props
