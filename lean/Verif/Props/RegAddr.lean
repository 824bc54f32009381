/-
C53: device addresses. The specification: the instances of a register and the bytes they occupy.
-/
import Verif.Tool.Registers
import Mathlib.Tactic.Common

set_option autoImplicit false

namespace Verif.Props
open Verif.Tool.Registers

/-- A range of instances of a register: those with index `first` to `last`, `stride` bytes apart, the first at `base`. -/
structure Range where
  first : Nat
  base : Nat
  stride : Nat
  last : Nat
deriving DecidableEq

/-- The ranges of a register: the last number of an address range is the index of its last instance ("id limit", spec_reg.py:35),
and indices go on from one range to the next. -/
def ranges : Nat → List (Nat × Nat × Nat) → List Range
  | _, [] => []
  | i, (b, m, l) :: rs => ⟨i, b, m, l⟩ :: ranges (l + 1) rs

/-- Instance `n` of the range is at `a`. -/
def Range.At (R : Range) (n a : Nat) : Prop := R.first ≤ n ∧ n ≤ R.last ∧ a = R.base + (n - R.first) * R.stride

/-- Address `a` is between the start of the first and the end of the last instance. -/
def Range.Spans (R : Range) (bytes a : Nat) : Prop := R.base ≤ a ∧ a < R.base + (R.last - R.first) * R.stride + bytes

/-- Instance `n` of the register is at `a`. -/
def Reg.InstanceAt (r : Reg) (n a : Nat) : Prop := ∃ R ∈ ranges 0 r.addr, R.At n a

namespace RegAddr

/-- The ranges with the indices that the code uses. -/
def codeRanges : Nat → List (Nat × Nat × Nat) → List Range
  | _, [] => []
  | i, (b, m, l) :: rs => ⟨i, b, m, l⟩ :: codeRanges (i + (l + 1)) rs

theorem codeRanges_eq : ∀ rs : List (Nat × Nat × Nat), rs.length ≤ 2 → codeRanges 0 rs = ranges 0 rs
  | [], _ => rfl
  | [_], _ => rfl
  | [(b, m, l), _], _ => by simp [codeRanges, ranges]
  | _ :: _ :: _ :: _, h => by simp at h

theorem mem_rangeEntries (name : String) (e : Nat × String × Nat) : ∀ (rs : List (Nat × Nat × Nat)) (i : Nat),
    e ∈ rangeEntries name i rs ↔ e.2.1 = name ∧ ∃ R ∈ codeRanges i rs, R.At e.2.2 e.1
  | [], i => by simp [rangeEntries, codeRanges]
  | (b, m, l) :: rs, i => by
    obtain ⟨a, name', n⟩ := e
    rw [rangeEntries, List.mem_append, mem_rangeEntries name _ rs]
    simp only [List.mem_map, List.mem_range, Prod.mk.injEq, codeRanges, List.mem_cons, exists_eq_or_imp, Range.At]
    constructor
    · rintro (⟨k, hk, rfl, rfl, rfl⟩ | ⟨h, h'⟩)
      · exact ⟨rfl, .inl ⟨by omega, by omega, by rw [Nat.add_sub_cancel]⟩⟩
      · exact ⟨h, .inr h'⟩
    · rintro ⟨rfl, ⟨h1, h2, rfl⟩ | h'⟩
      · exact .inl ⟨n - i, by omega, rfl, rfl, by omega⟩
      · exact .inr ⟨rfl, h'⟩

theorem mem_entries {t : Table} (h2 : ∀ r ∈ t, r.2.addr.length ≤ 2) (e : Nat × String × Nat) :
    e ∈ entries t ↔ ∃ r ∈ t, e.2.1 = r.1 ∧ Reg.InstanceAt r.2 e.2.2 e.1 := by
  unfold entries
  rw [List.mem_flatMap]
  constructor
  · rintro ⟨r, hr, he⟩
    rw [mem_rangeEntries, codeRanges_eq _ (h2 r hr)] at he
    exact ⟨r, hr, he⟩
  · rintro ⟨r, hr, he⟩
    refine ⟨r, hr, ?_⟩
    rw [mem_rangeEntries, codeRanges_eq _ (h2 r hr)]
    exact he

/-- The cache has only instances, and one for each address of an instance. -/
theorem cached_some {t : Table} (h2 : ∀ r ∈ t, r.2.addr.length ≤ 2) {a : Nat} {x : String × Nat} (h : cached t a = some x) :
    ∃ r ∈ t, x.1 = r.1 ∧ Reg.InstanceAt r.2 x.2 a := by
  unfold cached at h
  rw [Option.map_eq_some_iff] at h
  obtain ⟨e, he, rfl⟩ := h
  have h1 := List.mem_of_find?_eq_some he
  have h3 := List.find?_some he
  simp only [beq_iff_eq] at h3
  rw [List.mem_reverse, mem_entries h2] at h1
  rw [← h3]
  exact h1

theorem cached_none {t : Table} (h2 : ∀ r ∈ t, r.2.addr.length ≤ 2) {a : Nat} (h : cached t a = none) {r : String × Reg} (hr : r ∈ t) (n : Nat) :
    ¬ Reg.InstanceAt r.2 n a := by
  intro hi
  unfold cached at h
  rw [Option.map_eq_none_iff, List.find?_eq_none] at h
  exact h (a, r.1, n) (by rw [List.mem_reverse, mem_entries h2]; exact ⟨r, hr, rfl, hi⟩) (by simp)

/-- The index that the search gives. -/
def Range.index (R : Range) (a : Nat) : Nat := if R.stride = 0 then 0 else (a - R.base) / R.stride + R.first

theorem searchRanges_some {name : String} {bytes a : Nat} {x : String × Nat} : ∀ (rs : List (Nat × Nat × Nat)) (i : Nat),
    (∀ R ∈ codeRanges i rs, R.first ≤ R.last) → searchRanges name bytes a i rs = some x →
    ∃ R ∈ codeRanges i rs, R.Spans bytes a ∧ x = (name, RegAddr.Range.index R a)
  | [], _, _, h => by simp [searchRanges] at h
  | (b, m, l) :: rs, i, hw, h => by
    have hle : i ≤ l := hw ⟨i, b, m, l⟩ (by simp [codeRanges])
    rw [searchRanges] at h
    split at h
    · rename_i hc
      refine ⟨⟨i, b, m, l⟩, by simp [codeRanges], ⟨hc.1, ?_⟩, ?_⟩
      · have := hc.2
        change a < b + (l - i) * m + bytes
        rw [← Int.ofNat_sub hle] at this
        exact_mod_cast this
      · simp only [Option.some.injEq] at h
        exact h.symm
    · obtain ⟨R, hR, h1, h2⟩ := searchRanges_some rs _ (fun R hR => hw R (by simp [codeRanges, hR])) h
      exact ⟨R, by simp [codeRanges, hR], h1, h2⟩

theorem searchRanges_isSome {name : String} {bytes a : Nat} : ∀ (rs : List (Nat × Nat × Nat)) (i : Nat),
    (∀ R ∈ codeRanges i rs, R.first ≤ R.last) → (∃ R ∈ codeRanges i rs, R.Spans bytes a) → (searchRanges name bytes a i rs).isSome = true
  | [], _, _, h => by simp [codeRanges] at h
  | (b, m, l) :: rs, i, hw, ⟨R, hR, hs⟩ => by
    have hle : i ≤ l := hw ⟨i, b, m, l⟩ (by simp [codeRanges])
    rw [searchRanges]
    split
    · rfl
    · rename_i hc
      simp only [codeRanges, List.mem_cons] at hR
      rcases hR with rfl | hR
      · refine absurd ⟨hs.1, ?_⟩ hc
        have h2 : a < b + (l - i) * m + bytes := hs.2
        rw [← Int.ofNat_sub hle]
        exact_mod_cast h2
      · exact searchRanges_isSome rs _ (fun R hR => hw R (by simp [codeRanges, hR])) ⟨R, hR, hs⟩

theorem search_some {a : Nat} {x : String × Nat} : ∀ t : Table, search a t = some x →
    ∃ r ∈ t, searchRanges r.1 (r.2.length / 8) a 0 r.2.addr = some x
  | [], h => by simp [search] at h
  | r :: t, h => by
    rw [search] at h
    split at h
    · rename_i y hy
      rw [h] at hy
      exact ⟨r, by simp, hy⟩
    · obtain ⟨r', hr', h'⟩ := search_some t h
      exact ⟨r', by simp [hr'], h'⟩

theorem search_isSome {a : Nat} : ∀ t : Table, (∃ r ∈ t, (searchRanges r.1 (r.2.length / 8) a 0 r.2.addr).isSome = true) → (search a t).isSome = true
  | [], h => by simp at h
  | r :: t, ⟨r', hr', h⟩ => by
    rw [search]
    split
    · rfl
    · rename_i hn
      rcases List.mem_cons.mp hr' with rfl | hr'
      · rw [hn] at h; cases h
      · exact search_isSome t ⟨r', hr', h⟩

end RegAddr

open RegAddr

/-- C53, base addresses: the address of an instance that is not also that of another one resolves to its register and index.
Missing: registers with three or more ranges, for which `C53_three_ranges_wrong` shows that the index is wrong. -/
theorem C53_base_partial (t : Table) (name : String) (r : Reg) (n a : Nat) (h2 : ∀ r ∈ t, r.2.addr.length ≤ 2)
    (hr : (name, r) ∈ t) (hi : Reg.InstanceAt r n a)
    (hu : ∀ name' r' n', (name', r') ∈ t → Reg.InstanceAt r' n' a → name' = name ∧ n' = n) :
    findReg t a = some (name, n) := by
  unfold findReg
  cases hc : cached t a with
  | none => exact absurd hi (cached_none h2 hc hr n)
  | some x =>
    obtain ⟨⟨name', r'⟩, hr', hx, hx'⟩ := cached_some h2 hc
    obtain ⟨h1, h3⟩ := hu name' r' x.2 hr' hx'
    simp only at hx ⊢
    rw [← h3, ← h1, ← hx]

/-- C53, all bytes: an address inside an instance resolves to its register and index, if no other range spans the address.
Missing: registers with three or more ranges, and addresses that other ranges span, as they do if the instances of two
registers alternate; `C53_alternating_wrong` shows that they resolve to the wrong register. -/
theorem C53_bytes_partial (t : Table) (name : String) (r : Reg) (R : Range) (n a : Nat) (h2 : ∀ r ∈ t, r.2.addr.length ≤ 2)
    (hw : ∀ r ∈ t, ∀ R ∈ ranges 0 r.2.addr, R.first ≤ R.last)
    (hr : (name, r) ∈ t) (hR : R ∈ ranges 0 r.addr) (hn : R.first ≤ n ∧ n ≤ R.last)
    (hs : (R.stride = 0 ∧ R.last = 0) ∨ r.length / 8 ≤ R.stride)
    (ha : R.base + (n - R.first) * R.stride ≤ a ∧ a < R.base + (n - R.first) * R.stride + r.length / 8)
    (hu : ∀ name' r' R', (name', r') ∈ t → R' ∈ ranges 0 r'.addr → (R'.Spans (r'.length / 8) a ∨ ∃ n', R'.At n' a) → name' = name ∧ R' = R) :
    findReg t a = some (name, n) := by
  -- the offset in the range
  have hidx : ∀ k, R.first ≤ k → k ≤ R.last → a = R.base + (k - R.first) * R.stride → k = n := by
    intro k h1 h3 h4
    rcases hs with ⟨hs, hl⟩ | hs
    · omega
    · by_contra hne
      rcases Nat.lt_or_gt_of_ne hne with hlt | hlt
      · have : (k - R.first + 1) * R.stride ≤ (n - R.first) * R.stride := Nat.mul_le_mul_right _ (by omega)
        rw [Nat.add_mul] at this
        omega
      · have : (n - R.first + 1) * R.stride ≤ (k - R.first) * R.stride := Nat.mul_le_mul_right _ (by omega)
        rw [Nat.add_mul] at this
        omega
  unfold findReg
  cases hc : cached t a with
  | some x =>
    obtain ⟨⟨name', r'⟩, hr', hx, R', hR', hat⟩ := cached_some h2 hc
    obtain ⟨h1, h3⟩ := hu name' r' R' hr' hR' (.inr ⟨_, hat⟩)
    subst h3
    simp only at hx ⊢
    rw [← hidx x.2 hat.1 hat.2.1 hat.2.2, ← h1, ← hx]
  | none =>
    simp only
    have hspan : R.Spans (r.length / 8) a := by
      refine ⟨by omega, ?_⟩
      have : (n - R.first) * R.stride ≤ (R.last - R.first) * R.stride := Nat.mul_le_mul_right _ (by omega)
      omega
    have hsome : (search a t).isSome = true := search_isSome t ⟨_, hr, searchRanges_isSome _ _
      (by rw [codeRanges_eq _ (h2 _ hr)]; exact hw _ hr) ⟨R, by rw [codeRanges_eq _ (h2 _ hr)]; exact hR, hspan⟩⟩
    obtain ⟨x, hx⟩ := Option.isSome_iff_exists.mp hsome
    rw [hx]
    obtain ⟨⟨name', r'⟩, hr', hx'⟩ := search_some t hx
    obtain ⟨R', hR', hsp, rfl⟩ := searchRanges_some _ _ (by rw [codeRanges_eq _ (h2 _ hr')]; exact hw _ hr') hx'
    rw [codeRanges_eq _ (h2 _ hr')] at hR'
    obtain ⟨h1, h3⟩ := hu name' r' R' hr' hR' (.inl hsp)
    subst h3
    simp only at h1 ⊢
    rw [h1]
    congr 2
    unfold RegAddr.Range.index
    rcases hs with ⟨hs, hl⟩ | hs
    · rw [if_pos hs]; omega
    · rw [if_neg (by omega)]
      have : (a - R'.base) / R'.stride = n - R'.first := by
        rw [Nat.div_eq_iff (by omega)]
        constructor
        · omega
        · omega
      omega

/-- The addresses of the registers of spec_reg.py:30-1433, in order. -/
def addresses : List (String × List (Nat × Nat × Nat)) := [
  ("CTRL", [(0x0, 0, 0)]),
  ("STATUS", [(0x8, 0, 0)]),
  ("EIMC_0", [(0x888, 0, 0)]),
  ("EIMC_1", [(0xAB0, 0, 0)]),
  ("EIMC_2", [(0xAB4, 0, 0)]),
  ("FCRTH", [(0x3260, 4, 7)]),
  ("FWSM", [(0x10148, 0, 0)]),
  ("RXPBSIZE", [(0x3c00, 4, 7)]),
  ("EEC", [(0x10010, 0, 0)]),
  ("RDRXCTL", [(0x2f00, 0, 0)]),
  ("PFUTA", [(0xf400, 4, 127)]),
  ("PFVLVF", [(0xf100, 4, 63)]),
  ("MPSAR", [(0xa600, 4, 255)]),
  ("PFVLVFB", [(0xf200, 4, 127)]),
  ("MTA", [(0x5200, 4, 127)]),
  ("MFLCN", [(0x4294, 0, 0)]),
  ("FCCFG", [(0x3D00, 0, 0)]),
  ("RTTDQSEL", [(0x4904, 0, 0)]),
  ("RTTDT1C", [(0x4908, 0, 0)]),
  ("FTQF", [(0xE600, 4, 127)]),
  ("RTTDCS", [(0x4900, 0, 0)]),
  ("TXPBSIZE", [(0xcc00, 4, 7)]),
  ("DTXMXSZRQ", [(0x8100, 0, 0)]),
  ("TXPBTHRESH", [(0x4950, 4, 7)]),
  ("MTQC", [(0x8120, 0, 0)]),
  ("HLREG0", [(0x4240, 0, 0)]),
  ("GRC_EXT", [(0x11050, 0, 0)]),
  ("RXMEMWRAP", [(0x3190, 0, 0)]),
  ("TDBAL", [(0x6000, 0x40, 127)]),
  ("TDBAH", [(0x6004, 0x40, 127)]),
  ("TDLEN", [(0x6008, 0x40, 127)]),
  ("TXDCTL", [(0x6028, 0x40, 127)]),
  ("TDWBAL", [(0x6038, 0x40, 127)]),
  ("TDWBAH", [(0x603c, 0x40, 127)]),
  ("DCA_TXCTRL", [(0x600c, 0x40, 127)]),
  ("DMATXCTL", [(0x4a80, 0, 0)]),
  ("RDBAL", [(0x1000, 0x40, 63), (0xd000, 0x40, 127)]),
  ("RDBAH", [(0x1004, 0x40, 63), (0xd004, 0x40, 127)]),
  ("RDLEN", [(0x1008, 0x40, 63), (0xd008, 0x40, 127)]),
  ("RDT", [(0x1018, 0x40, 63), (0xd018, 0x40, 127)]),
  ("RXDCTL", [(0x1028, 0x40, 63), (0xd028, 0x40, 127)]),
  ("SRRCTL", [(0x1014, 0x40, 63), (0xd014, 0x40, 127)]),
  ("PSRTYPE", [(0xEA00, 0x4, 63)]),
  ("RSCCTL", [(0x102C, 0x40, 63)]),
  ("DCA_RXCTRL", [(0x100c, 0x40, 63), (0xd00c, 0x40, 127)]),
  ("SECRXCTRL", [(0x8d00, 0, 0)]),
  ("SECRXSTAT", [(0x8d04, 0, 0)]),
  ("CTRL_EXT", [(0x18, 0, 0)]),
  ("RXCTRL", [(0x3000, 0, 0)]),
  ("FCTRL", [(0x5080, 0, 0)]),
  ("MANC", [(0x5820, 0, 0)]),
  ("RAL", [(0xA200, 8, 127)]),
  ("RAH", [(0xA204, 8, 127)]),
  ("TDT", [(0x6018, 0x40, 127)])]

/-- The registers, as far as addresses go: all are 32 bits long. -/
def intel82599 : Table := addresses.map fun x => (x.1, ⟨x.2, 32, .rw, []⟩)

namespace RegAddr

/-- Two ranges have no instance address in common. -/
def apart (R R' : Range) : Bool :=
  decide (R.base + (R.last - R.first) * R.stride < R'.base) || decide (R'.base + (R'.last - R'.first) * R'.stride < R.base) ||
  (R.stride == R'.stride && R.base % R.stride != R'.base % R'.stride)

theorem apart_sound {R R' : Range} (h : apart R R' = true) {n n' a : Nat} (h1 : R.At n a) (h2 : R'.At n' a) : False := by
  obtain ⟨ha, hb, hc⟩ := h1
  obtain ⟨ha', hb', hc'⟩ := h2
  have l1 : (n - R.first) * R.stride ≤ (R.last - R.first) * R.stride := Nat.mul_le_mul_right _ (by omega)
  have l2 : (n' - R'.first) * R'.stride ≤ (R'.last - R'.first) * R'.stride := Nat.mul_le_mul_right _ (by omega)
  simp only [apart, Bool.or_eq_true, decide_eq_true_eq, Bool.and_eq_true, beq_iff_eq, bne_iff_ne] at h
  rcases h with (h | h) | ⟨h, h'⟩
  · omega
  · omega
  · apply h'
    have e1 : a % R.stride = R.base % R.stride := by rw [hc, Nat.add_mul_mod_self_right]
    have e2 : a % R'.stride = R'.base % R'.stride := by rw [hc', Nat.add_mul_mod_self_right]
    rw [← e1, ← e2, h]

/-- All ranges of the table, with the names of the registers. -/
def allRanges (t : Table) : List (String × Range) := t.flatMap fun r => (ranges 0 r.2.addr).map fun R => (r.1, R)

theorem intel_pairwise : (allRanges intel82599).Pairwise fun x y => apart x.2 y.2 = true := by decide +kernel

theorem intel_strides : ∀ x ∈ allRanges intel82599, x.2.stride = 0 → x.2.last = 0 := by decide +kernel

theorem intel_two : ∀ r ∈ intel82599, r.2.addr.length ≤ 2 := by decide +kernel

theorem same_or_apart {l : List (String × Range)} (h : l.Pairwise fun x y => apart x.2 y.2 = true) {x y : String × Range} (hx : x ∈ l) (hy : y ∈ l) :
    x = y ∨ apart x.2 y.2 = true ∨ apart y.2 x.2 = true := by
  induction h with
  | nil => simp at hx
  | cons hh _ ih =>
    rcases List.mem_cons.mp hx with rfl | hx' <;> rcases List.mem_cons.mp hy with rfl | hy'
    · exact .inl rfl
    · exact .inr (.inl (hh _ hy'))
    · exact .inr (.inr (hh _ hx'))
    · exact ih hx' hy'

end RegAddr

/-- C53, base addresses, for the table of the code: the address of each instance of each register of spec_reg.py resolves to
that register and index. The table is checked by computation. -/
theorem C53_intel (name : String) (r : Reg) (n a : Nat) (hr : (name, r) ∈ intel82599) (hi : Reg.InstanceAt r n a) :
    findReg intel82599 a = some (name, n) := by
  refine C53_base_partial _ _ r _ _ intel_two hr hi ?_
  intro name' r' n' hr' ⟨R', hR', hat'⟩
  obtain ⟨R, hR, hat⟩ := hi
  have m1 : (name, R) ∈ allRanges intel82599 := List.mem_flatMap.mpr ⟨_, hr, List.mem_map_of_mem hR⟩
  have m2 : (name', R') ∈ allRanges intel82599 := List.mem_flatMap.mpr ⟨_, hr', List.mem_map_of_mem hR'⟩
  rcases same_or_apart intel_pairwise m1 m2 with h | h | h
  · obtain ⟨rfl, rfl⟩ := Prod.mk.inj h
    refine ⟨rfl, ?_⟩
    obtain ⟨ha, hb, hc⟩ := hat
    obtain ⟨ha', hb', hc'⟩ := hat'
    by_cases h0 : R.stride = 0
    · have := intel_strides _ m1 h0
      simp only at this
      omega
    · have e : (n - R.first) * R.stride = (n' - R.first) * R.stride := by omega
      have := Nat.eq_of_mul_eq_mul_right (Nat.pos_of_ne_zero h0) e
      omega
  · exact (apart_sound h hat hat').elim
  · exact (apart_sound h hat' hat).elim

/-- The hypotheses of `C53_intel`, and so of `C53_base_partial`, hold for an instance in the second range of RDBAL. -/
example : findReg intel82599 (0xd000 + 5 * 0x40) = some ("RDBAL", 69) :=
  C53_intel "RDBAL" ⟨[(0x1000, 0x40, 63), (0xd000, 0x40, 127)], 32, .rw, []⟩ 69 _ (by simp [intel82599, addresses])
    ⟨⟨64, 0xd000, 0x40, 127⟩, by simp [ranges], by simp [Range.At]⟩

/-- The hypotheses of `C53_bytes_partial` hold for the bytes of MTA, which no other range spans. -/
example : findReg intel82599 0x5213 = some ("MTA", 4) := by
  refine C53_bytes_partial _ "MTA" ⟨[(0x5200, 4, 127)], 32, .rw, []⟩ ⟨0, 0x5200, 4, 127⟩ 4 _ intel_two (by decide +kernel)
    (by simp [intel82599, addresses]) (by simp [ranges]) (by decide) (.inr (by decide)) (by decide) ?_
  have key : ∀ x ∈ allRanges intel82599, x.2.base ≤ 0x5213 → 0x5213 < x.2.base + (x.2.last - x.2.first) * x.2.stride + 4 →
      x = ("MTA", ⟨0, 0x5200, 4, 127⟩) := by decide +kernel
  have len : ∀ x ∈ intel82599, x.2.length = 32 := by decide +kernel
  intro name' r' R' hr' hR' h
  have hm : (name', R') ∈ allRanges intel82599 := List.mem_flatMap.mpr ⟨_, hr', List.mem_map_of_mem hR'⟩
  have hl : r'.length = 32 := len _ hr'
  have hs : R'.base ≤ 0x5213 ∧ 0x5213 < R'.base + (R'.last - R'.first) * R'.stride + 4 := by
    rcases h with h | ⟨n', h1, h2, h3⟩
    · rw [hl] at h; exact h
    · have : (n' - R'.first) * R'.stride ≤ (R'.last - R'.first) * R'.stride := Nat.mul_le_mul_right _ (by omega)
      omega
  exact Prod.mk.inj (key _ hm hs.1 hs.2)

/-- C53 is false of the code for addresses inside instances of registers that alternate: the second byte of TDBAH 0
(spec_reg.py:794-806) resolves to TDBAL 0. -/
theorem C53_alternating_wrong : ∃ (r : Reg) (n base a : Nat), ("TDBAH", r) ∈ intel82599 ∧ Reg.InstanceAt r n base ∧ base ≤ a ∧ a < base + r.length / 8 ∧
    findReg intel82599 a = some ("TDBAL", 0) := by
  refine ⟨⟨[(0x6004, 0x40, 127)], 32, .rw, []⟩, 0, 0x6004, 0x6005, by simp [intel82599, addresses],
    ⟨⟨0, 0x6004, 0x40, 127⟩, by simp [ranges], by simp [Range.At]⟩, by decide, by decide, ?_⟩
  decide +kernel

/-- Addresses that belong to no instance are not always refused: 0x6010 (TDH, which is not described) resolves to TDBAL 0. -/
theorem C53_undescribed_resolves : findReg intel82599 0x6010 = some ("TDBAL", 0) ∧
    ∀ name r n base, (name, r) ∈ intel82599 → Reg.InstanceAt r n base → ¬ (base ≤ 0x6010 ∧ 0x6010 < base + r.length / 8) := by
  refine ⟨by decide +kernel, ?_⟩
  rintro name r n base hr ⟨R, hR, h1, h2, h3⟩ hb
  have key : ∀ x ∈ allRanges intel82599, ¬ (x.2.base ≤ 0x6010 ∧ 0x6010 < x.2.base + (x.2.last - x.2.first) * x.2.stride + 4) ∨
      (x.2.stride = 0x40 ∧ 4 ≤ (0x6010 - x.2.base) % 0x40) := by decide +kernel
  have len : ∀ x ∈ intel82599, x.2.length = 32 := by decide +kernel
  have hl : r.length = 32 := len _ hr
  rw [hl] at hb
  have hm : (name, R) ∈ allRanges intel82599 := List.mem_flatMap.mpr ⟨_, hr, List.mem_map_of_mem hR⟩
  have hle : (n - R.first) * R.stride ≤ (R.last - R.first) * R.stride := Nat.mul_le_mul_right _ (by omega)
  rcases key _ hm with h | ⟨h, h'⟩
  · simp only at h; omega
  · simp only at h h'
    rw [h] at h3
    omega

/-- C53 is false of the code for registers with three ranges: the third starts with the wrong index, and here all its
addresses are unknown. No register of spec_reg.py has three ranges. -/
theorem C53_three_ranges_wrong : ∃ (r : Reg) (n a : Nat), Reg.InstanceAt r n a ∧ findReg [("A", r)] a = none := by
  refine ⟨⟨[(0x100, 4, 1), (0x200, 4, 3), (0x300, 4, 5)], 32, .rw, []⟩, 4, 0x300, ⟨⟨4, 0x300, 4, 5⟩, by simp [ranges], by simp [Range.At]⟩, ?_⟩
  decide +kernel

end Verif.Props
