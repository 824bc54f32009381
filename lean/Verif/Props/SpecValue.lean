import Verif.Base
import Verif.Tool.SpecValue
import Verif.Props.Runtime

/-!
# C39, C40, C41: values of specifications

C39: operations on values of different widths. C40: typed views and packet headers. C41: devices.
-/

set_option autoImplicit false

namespace Verif.Props

open Verif.Tool.SpecValue

/-! ### C39 -/

/-- What a comparison means for numbers. -/
def Cmp.holds : Cmp → Nat → Nat → Prop
  | .eq, a, b => a = b
  | .ne, a, b => a ≠ b
  | .lt, a, b => a < b
  | .le, a, b => a ≤ b
  | .gt, a, b => a > b
  | .ge, a, b => a ≥ b

/-- The comparison with the operands exchanged. -/
def Cmp.swap : Cmp → Cmp
  | .eq => .eq
  | .ne => .ne
  | .lt => .gt
  | .le => .ge
  | .gt => .lt
  | .ge => .le

theorem adapt_toNat {w v : Nat} (b : BitVec v) (h : b.toNat < 2 ^ w) : (adapt w b).toNat = b.toNat := by
  simp only [adapt, BitVec.toNat_setWidth]
  exact Nat.mod_eq_of_lt h

/-- C39 (partial: the other operand must fit the width of the first): comparisons compare the unsigned
values. -/
theorem C39_compare_partial {w v : Nat} (op : Cmp) (a : BitVec w) (b : BitVec v) (h : b.toNat < 2 ^ w) :
    cmpOp op a b = true ↔ Cmp.holds op a.toNat b.toNat := by
  have e := adapt_toNat b h
  cases op <;> simp only [cmpOp, Cmp.bv, Cmp.holds, BitVec.ult, BitVec.ule, decide_eq_true_eq, e, beq_iff_eq, Bool.not_eq_true',
    beq_eq_false_iff_ne, ne_eq, ← BitVec.toNat_inj, gt_iff_lt, ge_iff_le]

/-- C39: that is always the case if the other operand is not wider. -/
theorem C39_compare_narrower {w v : Nat} (op : Cmp) (a : BitVec w) (b : BitVec v) (h : v ≤ w) :
    cmpOp op a b = true ↔ Cmp.holds op a.toNat b.toNat :=
  C39_compare_partial op a b (Nat.lt_of_lt_of_le b.isLt (Nat.pow_le_pow_right (by omega) h))

/-- C39 (partial: both operands must fit the narrower width): exchanging the operands does not matter. -/
theorem C39_symmetric_partial {w v : Nat} (op : Cmp) (a : BitVec w) (b : BitVec v) (h1 : b.toNat < 2 ^ w) (h2 : a.toNat < 2 ^ v) :
    cmpOp op a b = cmpOp (Cmp.swap op) b a := by
  rw [Bool.eq_iff_iff, C39_compare_partial op a b h1, C39_compare_partial _ b a h2]
  cases op <;> simp only [Cmp.holds, Cmp.swap, gt_iff_lt, ge_iff_le, ne_eq, eq_comm]

/-- C39: what comparisons with a wider value do in general: its high bits are ignored. -/
theorem C39_compare_truncates {w v : Nat} (op : Cmp) (a : BitVec w) (b : BitVec v) :
    cmpOp op a b = true ↔ Cmp.holds op a.toNat (b.toNat % 2 ^ w) := by
  have e : (adapt w b).toNat = b.toNat % 2 ^ w := by simp [adapt]
  cases op <;> simp only [cmpOp, Cmp.bv, Cmp.holds, BitVec.ult, BitVec.ule, decide_eq_true_eq, e, beq_iff_eq, Bool.not_eq_true',
    beq_eq_false_iff_ne, ne_eq, ← BitVec.toNat_inj, gt_iff_lt, ge_iff_le]

/-- C39 is false: for all different widths, there are different values that are equal in one order and
not in the other. -/
theorem C39_equality_depends_on_order (w v : Nat) (h : w < v) :
    ∃ (a : BitVec w) (b : BitVec v), a.toNat ≠ b.toNat ∧ cmpOp .eq a b = true ∧ cmpOp .eq b a = false := by
  have hlt : 2 ^ w < 2 ^ v := Nat.pow_lt_pow_right (by omega) h
  have hpos : 0 < 2 ^ w := Nat.pow_pos (by omega)
  have hb : (BitVec.ofNat v (2 ^ w)).toNat = 2 ^ w := by rw [BitVec.toNat_ofNat]; exact Nat.mod_eq_of_lt hlt
  refine ⟨0#w, BitVec.ofNat v (2 ^ w), ?_, ?_, ?_⟩
  · rw [hb]; simp only [BitVec.toNat_ofNat, Nat.zero_mod]; omega
  · rw [C39_compare_truncates, hb]; simp [Cmp.holds]
  · rw [← Bool.not_eq_true, C39_compare_narrower _ _ _ (by omega), hb]
    simp only [Cmp.holds, BitVec.toNat_ofNat]
    simp

/-- C39 is false for integers too: a 16-bit value equals an integer it cannot have. -/
theorem C39_integer_wraps : cmpOp .eq (5#16) (ofInt 16 65541) = true := by decide

/-- What an operation means for numbers, when it has a result. -/
def Arith.result : Arith → Nat → Nat → Option Nat
  | .add, a, b => some (a + b)
  | .sub, a, b => if b ≤ a then some (a - b) else none
  | .mul, a, b => some (a * b)
  | .floordiv, a, b => if b ≠ 0 then some (a / b) else none
  | .and, a, b => some (a &&& b)
  | .or, a, b => some (a ||| b)
  | .shl, a, b => some (a * 2 ^ b)
  | .lshr, a, b => some (a / 2 ^ b)
  | .rsub, a, b => if a ≤ b then some (b - a) else none
  | .rfloordiv, a, b => if a ≠ 0 then some (b / a) else none

/-- C39 (partial: the other operand and the result must fit the width of the first): operations give
the mathematical result. -/
theorem C39_arithmetic_partial {w v : Nat} (op : Arith) (a : BitVec w) (b : BitVec v) (h : b.toNat < 2 ^ w) (r : Nat)
    (hr : Arith.result op a.toNat b.toNat = some r) (hfit : r < 2 ^ w) : (bvOp op a b).toNat = r := by
  have e := adapt_toNat b h
  have hmax : r < 2 ^ max w v := Nat.lt_of_lt_of_le hfit (Nat.pow_le_pow_right (by omega) (Nat.le_max_left _ _))
  suffices hs : (op.bv a (adapt w b)).toNat = r by
    simp only [bvOp, BitVec.toNat_setWidth, hs]
    exact Nat.mod_eq_of_lt hmax
  have ha := a.isLt
  cases op <;> simp only [Arith.result, Option.some.injEq, Option.ite_none_right_eq_some] at hr <;> simp only [Arith.bv]
  · rw [BitVec.toNat_add, e, hr]; exact Nat.mod_eq_of_lt hfit
  · rw [BitVec.toNat_sub_of_le (by rw [BitVec.le_def, e]; exact hr.1), e]; exact hr.2
  · rw [BitVec.toNat_mul, e, hr]; exact Nat.mod_eq_of_lt hfit
  · rw [BitVec.smtUDiv_eq, if_neg (by intro h0; have := congrArg BitVec.toNat h0; rw [e] at this; simp at this; exact hr.1 this),
      BitVec.toNat_udiv, e]
    exact hr.2
  · rw [BitVec.toNat_and, e]; exact hr
  · rw [BitVec.toNat_or, e]; exact hr
  · rw [BitVec.shiftLeft_eq', BitVec.toNat_shiftLeft, Nat.shiftLeft_eq, e, hr]; exact Nat.mod_eq_of_lt hfit
  · rw [BitVec.ushiftRight_eq', BitVec.toNat_ushiftRight, Nat.shiftRight_eq_div_pow, e]; exact hr
  · rw [BitVec.toNat_sub_of_le (by rw [BitVec.le_def, e]; exact hr.1), e]; exact hr.2
  · rw [BitVec.smtUDiv_eq, if_neg (by intro h0; have := congrArg BitVec.toNat h0; simp at this; exact hr.1 this),
      BitVec.toNat_udiv, e]
    exact hr.2

/-- C39 is false: the sum depends on the order of the operands. -/
theorem C39_sum_depends_on_order : (bvOp .add (0xFFFF#16) (1#64)).toNat = 0 ∧ (bvOp .add (1#64) (0xFFFF#16)).toNat = 0x10000 := by decide

example : (10000#64).toNat < 2 ^ 16 ∧ cmpOp .lt (9999#16) (10000#64) = true ∧
    Arith.result .add (9999#16).toNat (10000#64).toNat = some 19999 := by decide

/-! ### C40: typed views -/

theorem slice_size {x y : Bv} {hi lo : Nat} (h : x.slice hi lo = some y) : y.size = hi - lo + 1 ∧ y.val = x.val / 2 ^ lo % 2 ^ (hi - lo + 1) := by
  unfold Bv.slice at h
  split at h
  · cases h; exact ⟨rfl, rfl⟩
  · cases h

/-- All fields have bits. -/
def NoEmpty (fs : List (String × Ty)) : Prop := ∀ f ∈ fs, 0 < f.2.size

/-- C40: each field of a typed view has exactly the bits at its position: the fields are laid out one
after the other from the least significant bit. -/
theorem C40_view_fields (v : Bv) (fs : List (String × Ty)) (hne : NoEmpty fs) : ∀ offset, offset + fieldsSize fs ≤ v.size →
    ∃ xs, wrapFields v offset fs = some xs ∧ xs.map Prod.fst = fs.map Prod.fst ∧
      ∀ pre f post, fs = pre ++ f :: post →
        xs[pre.length]? = some (f.1, ⟨f.2.size, v.val / 2 ^ (offset + fieldsSize pre) % 2 ^ f.2.size⟩) := by
  induction fs with
  | nil => intro offset _; exact ⟨[], rfl, rfl, by intro pre f post h; simp at h⟩
  | cons g fs ih =>
    intro offset hle
    have hg := hne g (by simp)
    simp only [fieldsSize] at hle
    obtain ⟨xs, h1, h2, h3⟩ := ih (fun f hf => hne f (by simp [hf])) (offset + g.2.size) (by omega)
    have hs : v.slice (g.2.size + offset - 1) offset = some ⟨g.2.size, v.val / 2 ^ offset % 2 ^ g.2.size⟩ := by
      unfold Bv.slice
      rw [if_pos (by omega), show g.2.size + offset - 1 - offset + 1 = g.2.size by omega]
    refine ⟨(g.1, ⟨g.2.size, v.val / 2 ^ offset % 2 ^ g.2.size⟩) :: xs, by simp only [wrapFields, hs, h1], by simp [h2], ?_⟩
    intro pre f post he
    cases pre with
    | nil =>
      simp only [List.nil_append, List.cons.injEq] at he
      simp [fieldsSize, he.1]
    | cons p pre =>
      simp only [List.cons_append, List.cons.injEq] at he
      simp only [List.length_cons, List.getElem?_cons_succ, fieldsSize]
      rw [h3 pre f post he.2, he.1, Nat.add_assoc]

theorem fold_concat (v : Bv) (fs : List (String × Ty)) (hne : NoEmpty fs) : ∀ (offset : Nat) (xs : List (String × Bv)),
    wrapFields v offset fs = some xs → ∀ r : Bv, r.val = v.val % 2 ^ offset → r.size = offset →
    xs.foldl (fun r g => g.2.concat r) r = ⟨offset + fieldsSize fs, v.val % 2 ^ (offset + fieldsSize fs)⟩ := by
  induction fs with
  | nil =>
    intro offset xs h r hr hs
    simp only [wrapFields, Option.some.injEq] at h
    subst h
    cases r
    simp only at hr hs
    simp [fieldsSize, hr, hs]
  | cons g fs ih =>
    intro offset xs h r hr hs
    simp only [wrapFields] at h
    cases hsl : v.slice (g.2.size + offset - 1) offset with
    | none => rw [hsl] at h; cases h
    | some x =>
      rw [hsl] at h
      simp only at h
      cases hw : wrapFields v (offset + g.2.size) fs with
      | none => rw [hw] at h; cases h
      | some xs' =>
        rw [hw] at h
        simp only [Option.some.injEq] at h
        subst h
        have hg := hne g (by simp)
        obtain ⟨s1, s2⟩ := slice_size hsl
        rw [show g.2.size + offset - 1 - offset + 1 = g.2.size by omega] at s1 s2
        simp only [List.foldl_cons, fieldsSize]
        rw [ih (fun f hf => hne f (by simp [hf])) (offset + g.2.size) xs' hw]
        · rw [Nat.add_assoc]
        · simp only [Bv.concat, s2, hr, hs]
          rw [Nat.pow_add, Nat.mod_mul]
          omega
        · simp only [Bv.concat, s1, hs]; omega

/-- C40: unwrapping a typed view of a value gives the value back (its low bits, if the type is smaller
than the value), extended to the requested size. -/
theorem C40_unwrap_wrap (v : Bv) (fs : List (String × Ty)) (hfs : fs ≠ []) (hne : NoEmpty fs) (hle : (Ty.record fs).size ≤ v.size) (n : Nat) :
    ∃ view, wrap v (.record fs) = some view ∧
      unwrap view n = some ⟨max n (Ty.record fs).size, v.val % 2 ^ (Ty.record fs).size⟩ := by
  simp only [Ty.size] at hle ⊢
  obtain ⟨xs, h1, h2, h3⟩ := C40_view_fields v fs hne 0 (by omega)
  refine ⟨.fields xs, by simp [wrap, h1], ?_⟩
  have hf := fold_concat v fs hne 0 xs h1 ⟨0, 0⟩ (by simp [Nat.mod_one]) rfl
  cases xs with
  | nil =>
    cases fs with
    | nil => exact absurd rfl hfs
    | cons => simp at h2
  | cons x xs =>
    have hx : x.2.concat ⟨0, 0⟩ = x.2 := by simp [Bv.concat]
    simp only [List.foldl_cons, hx, Nat.zero_add] at hf
    simp only [unwrap, concatAll, Option.map_some, hf, extendTo, Bv.zeroExtend]
    by_cases hn : fieldsSize fs < n
    · rw [if_pos hn]
      simp only [Option.some.injEq, Bv.mk.injEq, and_true]; omega
    · rw [if_neg hn]
      simp only [Option.some.injEq, Bv.mk.injEq, and_true]; omega

/-- C40: in particular, the value itself if its size is that of the type. -/
theorem C40_round_trip (v : Bv) (hv : v.val < 2 ^ v.size) (fs : List (String × Ty)) (hfs : fs ≠ []) (hne : NoEmpty fs)
    (hsize : (Ty.record fs).size = v.size) : (wrap v (.record fs)).bind (fun view => unwrap view v.size) = some v := by
  obtain ⟨view, h1, h2⟩ := C40_unwrap_wrap v fs hfs hne (by omega) v.size
  rw [h1, Option.bind_some, h2, hsize, Nat.max_self, Nat.mod_eq_of_lt hv]

/-- A flow with a nested record, as in the firewall's specification. -/
example : NoEmpty [("src_ip", .bits 32), ("ports", .record [("src", .bits 16), ("dst", .bits 16)]), ("protocol", .bits 8)] ∧
    (Ty.record [("src_ip", .bits 32), ("ports", .record [("src", .bits 16), ("dst", .bits 16)]), ("protocol", .bits 8)]).size = 72 := by
  simp [NoEmpty, Ty.size, fieldsSize]

/-! ### C40: packet headers -/

/-- The i-th bit of a packet, least significant bit of the first byte first. -/
def packetBit (bytes : List UInt8) (i : Nat) : Bool := (bytes[i / 8]?.getD 0).toNat.testBit (i % 8)

/-- The value consists of the bits of the packet from a position on. -/
def BitsAt (bytes : List UInt8) (offset : Nat) (v : Bv) : Prop :=
  v.val < 2 ^ v.size ∧ ∀ k, k < v.size → v.val.testBit k = packetBit bytes (offset + k)

theorem bitsAt_nil (bytes : List UInt8) (offset : Nat) : BitsAt bytes offset ⟨0, 0⟩ := ⟨by simp, by intro k hk; simp at hk⟩

theorem bitsAt_concat {bytes : List UInt8} {offset : Nat} {hi lo : Bv} (h1 : BitsAt bytes (offset + lo.size) hi) (h2 : BitsAt bytes offset lo) :
    BitsAt bytes offset (hi.concat lo) := by
  constructor
  · simp only [Bv.concat]
    have h3 := h1.1
    have h4 := h2.1
    rw [Nat.pow_add, Nat.mul_comm (2 ^ hi.size)]
    calc 2 ^ lo.size * hi.val + lo.val < 2 ^ lo.size * hi.val + 2 ^ lo.size := by omega
      _ = 2 ^ lo.size * (hi.val + 1) := by ring
      _ ≤ _ := Nat.mul_le_mul_left _ h3
  · intro k hk
    simp only [Bv.concat] at hk ⊢
    rw [Nat.testBit_two_pow_mul_add _ h2.1]
    by_cases hl : k < lo.size
    · simp only [hl, if_true]; exact h2.2 k hl
    · simp only [hl, if_false]
      rw [h1.2 (k - lo.size) (by omega)]
      congr 1; omega

theorem bitsAt_slice {bytes : List UInt8} {offset : Nat} {v y : Bv} {hi lo : Nat} (h : BitsAt bytes offset v) (hs : v.slice hi lo = some y) :
    BitsAt bytes (offset + lo) y := by
  unfold Bv.slice at hs
  split at hs
  · rename_i hc
    cases hs
    refine ⟨Nat.mod_lt _ (Nat.pow_pos (by omega)), ?_⟩
    intro k hk
    simp only at hk ⊢
    rw [Nat.testBit_mod_two_pow, Nat.testBit_div_two_pow]
    simp only [hk, decide_true, Bool.true_and]
    rw [Nat.add_comm k lo, h.2 (lo + k) (by omega), Nat.add_assoc]
  · cases hs

theorem bitsAt_byte {bytes : List UInt8} {index : Nat} {b : UInt8} (h : bytes[index]? = some b) : BitsAt bytes (8 * index) ⟨8, b.toNat⟩ := by
  refine ⟨b.toNat_lt, ?_⟩
  intro k hk
  simp only at hk ⊢
  unfold packetBit
  rw [show (8 * index + k) / 8 = index by omega, show (8 * index + k) % 8 = k by omega, h]
  rfl

/-- A value is determined by its size and bits. -/
theorem bitsAt_unique {bytes : List UInt8} {offset : Nat} {v w : Bv} (hs : v.size = w.size) (h1 : BitsAt bytes offset v) (h2 : BitsAt bytes offset w) :
    v = w := by
  cases v with
  | mk s a =>
    cases w with
    | mk s' b =>
      simp only at hs
      subst hs
      congr 1
      apply Nat.eq_of_testBit_eq
      intro k
      by_cases hk : k < s
      · have := h1.2 k hk
        have := h2.2 k hk
        simp_all
      · have e1 := Nat.testBit_lt_two_pow (Nat.lt_of_lt_of_le h1.1 (Nat.pow_le_pow_right (by omega) (show s ≤ k by omega)))
        have e2 := Nat.testBit_lt_two_pow (Nat.lt_of_lt_of_le h2.1 (Nat.pow_le_pow_right (by omega) (show s ≤ k by omega)))
        simp only at e1 e2
        rw [e1, e2]

theorem readChunks_spec (bytes : List UInt8) (need start : Nat) : ∀ (k index : Nat) (r : Bv), start ≤ index → r.size = 8 * (index - start) →
    BitsAt bytes (8 * start) r → need ≤ r.size + k → (r.size = 0 ∨ index ≤ bytes.length) →
    (8 * start + need ≤ 8 * bytes.length →
      ∃ r', readChunks bytes need k index r = some r' ∧ need ≤ r'.size ∧ BitsAt bytes (8 * start) r') ∧
    (0 < need → 8 * bytes.length < 8 * start + need → readChunks bytes need k index r = none) := by
  intro k
  induction k with
  | zero =>
    intro index r h1 h2 h3 h4 h5
    refine ⟨fun _ => ⟨r, by simp only [readChunks]; rw [if_neg (by omega)], by omega, h3⟩, fun hp hb => ?_⟩
    omega
  | succ k ih =>
    intro index r h1 h2 h3 h4 h5
    by_cases hs : r.size < need
    · simp only [readChunks, if_pos hs]
      cases hb : bytes[index]? with
      | none =>
        have := List.getElem?_eq_none_iff.mp hb
        exact ⟨fun h => by omega, fun _ _ => rfl⟩
      | some b =>
        have hlt := (List.getElem?_eq_some_iff.mp hb).1
        simp only
        refine ih (index + 1) _ (by omega) (by simp only [Bv.concat]; omega) ?_ (by simp only [Bv.concat]; omega) (Or.inr hlt)
        refine bitsAt_concat ?_ h3
        rw [h2, show 8 * start + 8 * (index - start) = 8 * index by omega]
        exact bitsAt_byte hb
    · simp only [readChunks, if_neg hs]
      refine ⟨fun _ => ⟨r, rfl, by omega, h3⟩, fun hp hb => ?_⟩
      omega

/-- C40: reading a field gives exactly the bits at its position if they are all in the packet, and
fails otherwise. -/
theorem C40_field_bits (bytes : List UInt8) (offset size : Nat) (hsize : 0 < size) :
    (offset + size ≤ 8 * bytes.length → ∃ v, readBits bytes offset size = some v ∧ v.size = size ∧ BitsAt bytes offset v) ∧
    (8 * bytes.length < offset + size → readBits bytes offset size = none) := by
  have h := readChunks_spec bytes (size + offset % 8) (offset / 8) (size + offset % 8) (offset / 8) ⟨0, 0⟩ (Nat.le_refl _) (by simp)
    (bitsAt_nil _ _) (by simp) (Or.inl rfl)
  refine ⟨fun hle => ?_, fun hlt => ?_⟩
  · obtain ⟨r, h1, h2, h3⟩ := h.1 (by omega)
    simp only [readBits, h1]
    have hd : ∃ r2, dropLow r (offset % 8) = some r2 ∧ size ≤ r2.size ∧ BitsAt bytes offset r2 := by
      unfold dropLow
      by_cases ho : offset % 8 = 0
      · refine ⟨r, by simp [ho], by omega, ?_⟩
        rw [show offset = 8 * (offset / 8) by omega]; exact h3
      · rw [if_pos ho]
        have hs : r.slice (r.size - 1) (offset % 8) = some ⟨r.size - 1 - offset % 8 + 1, r.val / 2 ^ (offset % 8) % 2 ^ (r.size - 1 - offset % 8 + 1)⟩ := by
          unfold Bv.slice; rw [if_pos (by omega)]
        refine ⟨_, hs, by simp only; omega, ?_⟩
        have := bitsAt_slice h3 hs
        rwa [show 8 * (offset / 8) + offset % 8 = offset by omega] at this
    obtain ⟨r2, d1, d2, d3⟩ := hd
    rw [d1]
    simp only
    unfold keepLow
    by_cases hk : r2.size > size
    · rw [if_pos hk]
      have hs : r2.slice (size - 1) 0 = some ⟨size - 1 - 0 + 1, r2.val / 2 ^ 0 % 2 ^ (size - 1 - 0 + 1)⟩ := by
        unfold Bv.slice; rw [if_pos (by omega)]
      have hb := bitsAt_slice d3 hs
      rw [Nat.add_zero] at hb
      refine ⟨_, hs, ?_, hb⟩
      simp only
      omega
    · rw [if_neg hk]
      exact ⟨r2, rfl, by omega, d3⟩
  · have := h.2 (by omega) (by omega)
    simp only [readBits, this]

/-- The number of bits of some attributes. -/
def bitsOf (attrs : List (String × Nat)) : Nat := (attrs.map Prod.snd).sum

theorem findAttr_spec (name : String) (size : Nat) (post : List (String × Nat)) : ∀ (pre : List (String × Nat)) (offset : Nat),
    (∀ f ∈ pre, f.1 ≠ name) → findAttr name offset (pre ++ (name, size) :: post) = some (offset + bitsOf pre, size) := by
  intro pre
  induction pre with
  | nil => intro offset _; simp [findAttr, bitsOf]
  | cons f pre ih =>
    intro offset h
    simp only [List.cons_append, findAttr]
    rw [if_neg (h f (by simp)), ih _ (fun g hg => h g (by simp [hg]))]
    simp [bitsOf, Nat.add_assoc]

/-- C40: an attribute of a header consists of the bits of the packet after those of the attributes
before it. -/
theorem C40_attribute (bytes : List UInt8) (h : Header) (pre post : List (String × Nat)) (name : String) (size : Nat)
    (hattrs : h.attrs = pre ++ (name, size) :: post) (hname : ∀ f ∈ pre, f.1 ≠ name) (hsize : 0 < size)
    (hlen : h.offset + bitsOf pre + size ≤ 8 * bytes.length) :
    ∃ v, h.attr bytes name = some v ∧ v.size = size ∧ BitsAt bytes (h.offset + bitsOf pre) v := by
  simp only [Header.attr, hattrs, findAttr_spec name size post pre h.offset hname]
  exact (C40_field_bits bytes _ size hsize).1 hlen

/-- C40: concatenating all attributes gives the bits of the header. -/
theorem C40_as_value (bytes : List UInt8) (h : Header) (hne : h.attrs ≠ []) (hnd : (h.attrs.map Prod.fst).Nodup)
    (hsize : ∀ f ∈ h.attrs, 0 < f.2) (hlen : h.offset + bitsOf h.attrs ≤ 8 * bytes.length) :
    ∃ v, h.asValue bytes = some v ∧ v.size = bitsOf h.attrs ∧ BitsAt bytes h.offset v := by
  have hattr : ∀ pre f post, h.attrs = pre ++ f :: post → ∃ v, h.attr bytes f.1 = some v ∧ v.size = f.2 ∧ BitsAt bytes (h.offset + bitsOf pre) v := by
    intro pre f post he
    refine C40_attribute bytes h pre post f.1 f.2 (by rw [he]) ?_ (hsize f (by rw [he]; simp)) ?_
    · rw [he, List.map_append, List.map_cons, List.nodup_append] at hnd
      intro g hg heq
      exact hnd.2.2 g.1 (List.mem_map_of_mem hg) f.1 (by simp) heq
    · have : bitsOf h.attrs = bitsOf pre + (f.2 + bitsOf post) := by rw [he]; simp [bitsOf]
      omega
  have gen : ∀ (post pre : List (String × Nat)) (r : Bv), h.attrs = pre ++ post → r.size = bitsOf pre → BitsAt bytes h.offset r →
      ∃ v, h.concatFrom bytes r post = some v ∧ v.size = bitsOf h.attrs ∧ BitsAt bytes h.offset v := by
    intro post
    induction post with
    | nil => intro pre r he hs hb; exact ⟨r, rfl, by rw [hs, he]; simp, hb⟩
    | cons f post ih =>
      intro pre r he hs hb
      obtain ⟨v, h1, h2, h3⟩ := hattr pre f post he
      simp only [Header.concatFrom, h1]
      refine ih (pre ++ [f]) _ (by simp [he]) ?_ ?_
      · simp only [Bv.concat, h2, hs, bitsOf, List.map_append, List.sum_append]; simp; omega
      · exact bitsAt_concat (by rw [hs]; exact h3) hb
  cases hc : h.attrs with
  | nil => exact absurd hc hne
  | cons f post =>
    obtain ⟨v, h1, h2, h3⟩ := hattr [] f post hc
    simp only [Header.asValue, hc, h1]
    obtain ⟨w, g1, g2, g3⟩ := gen post [f] v (by simp [hc]) (by simp [bitsOf, h2]) (by simpa [bitsOf] using h3)
    exact ⟨w, g1, by rw [g2, hc], g3⟩

/-- C40: the addresses, ports and other fields of whole bytes are where the standards have them: the Ethernet addresses in bytes 0 to 5 and 6
to 11 and the type in 12 and 13, the IPv4 header from byte 14 with its length at 16, identification at 18, checksum at 24 and
addresses at 26 and 30, and the ports at 34 and 36, if the IPv4 header has no options. -/
theorem C40_offsets (bytes : List UInt8) (hlen : 38 ≤ bytes.length) (h : Header) (name : String) (byte size : Nat)
    (hf : (h, name, byte, size) ∈ [(ether, "dst", 0, 6), (ether, "src", 6, 6), (ether, "type", 12, 2), (ipv4, "total_length", 16, 2),
      (ipv4, "identification", 18, 2), (ipv4, "time_to_live", 22, 1), (ipv4, "protocol", 23, 1), (ipv4, "checksum", 24, 2), (ipv4, "src", 26, 4),
      (ipv4, "dst", 30, 4), (tcpudp, "src", 34, 2), (tcpudp, "dst", 36, 2)]) :
    ∃ v, h.attr bytes name = some v ∧ v.size = 8 * size ∧ BitsAt bytes (8 * byte) v := by
  have key : ∀ (h : Header) (name : String) (byte size : Nat), findAttr name h.offset h.attrs = some (8 * byte, 8 * size) → 0 < size →
      byte + size ≤ 38 → ∃ v, h.attr bytes name = some v ∧ v.size = 8 * size ∧ BitsAt bytes (8 * byte) v := by
    intro h name byte size h1 h2 h3
    simp only [Header.attr, h1]
    exact (C40_field_bits bytes _ _ (by omega)).1 (by omega)
  simp only [List.mem_cons, Prod.mk.injEq, List.not_mem_nil, or_false] at hf
  rcases hf with ⟨rfl, rfl, rfl, rfl⟩ | ⟨rfl, rfl, rfl, rfl⟩ | ⟨rfl, rfl, rfl, rfl⟩ | ⟨rfl, rfl, rfl, rfl⟩ | ⟨rfl, rfl, rfl, rfl⟩ |
    ⟨rfl, rfl, rfl, rfl⟩ | ⟨rfl, rfl, rfl, rfl⟩ | ⟨rfl, rfl, rfl, rfl⟩ | ⟨rfl, rfl, rfl, rfl⟩ | ⟨rfl, rfl, rfl, rfl⟩ | ⟨rfl, rfl, rfl, rfl⟩ |
    ⟨rfl, rfl, rfl, rfl⟩ <;> exact key _ _ _ _ (by decide) (by decide) (by decide)

/-- The source port of a packet whose bytes 34 and 35 are 31 and 144: the first byte is the low one. -/
example : tcpudp.attr (List.replicate 34 0 ++ [31, 144, 0, 80]) "src" = some ⟨16, 31 + 256 * 144⟩ := by decide

/-- The headers that specifications use meet the conditions, for packets of at least 38 bytes. -/
example : ∀ h ∈ [ether, ipv4, tcpudp], h.attrs ≠ [] ∧ (h.attrs.map Prod.fst).Nodup ∧ (∀ f ∈ h.attrs, 0 < f.2) ∧ h.offset + bitsOf h.attrs ≤ 8 * 38 := by
  decide

/-! ### C40: the IPv4 header -/

/-- The byte at a position. -/
def byteAt (bytes : List UInt8) (i : Nat) : Nat := (bytes[i]?.getD 0).toNat

theorem byte_get {bytes : List UInt8} {i : Nat} (h : i < bytes.length) : ∃ b, bytes[i]? = some b ∧ byteAt bytes i = b.toNat :=
  ⟨bytes[i], List.getElem?_eq_getElem h, by simp [byteAt, h]⟩

/-- C40 (partial: the other IPv4 fields within bytes are wrong, see below): version, header length,
time to live and protocol are as in RFC 791: version in the high half of the first byte. -/
theorem C40_ipv4_bytes_partial (bytes : List UInt8) (h : 34 ≤ bytes.length) :
    ipv4.attr bytes "version" = some ⟨4, byteAt bytes 14 / 16⟩ ∧ ipv4.attr bytes "ihl" = some ⟨4, byteAt bytes 14 % 16⟩ ∧
    ipv4.attr bytes "time_to_live" = some ⟨8, byteAt bytes 22⟩ ∧ ipv4.attr bytes "protocol" = some ⟨8, byteAt bytes 23⟩ := by
  obtain ⟨b, hb, eb⟩ := byte_get (bytes := bytes) (i := 14) (by omega)
  obtain ⟨c, hc, ec⟩ := byte_get (bytes := bytes) (i := 22) (by omega)
  obtain ⟨d, hd, ed⟩ := byte_get (bytes := bytes) (i := 23) (by omega)
  have := b.toNat_lt
  refine ⟨?_, ?_, ?_, ?_⟩ <;>
    simp [Header.attr, ipv4, findAttr, readBits, readChunks, hb, hc, hd, dropLow, keepLow, Bv.concat, Bv.slice, eb, ec, ed]
  omega

/-- C40 is false: the DSCP is the six high bits of its byte (RFC 2474), but the specification's field
has the six low bits; likewise the two bits of ECN. -/
theorem C40_ipv4_dscp_wrong (bytes : List UInt8) (h : 34 ≤ bytes.length) :
    ipv4.attr bytes "dscp" = some ⟨6, byteAt bytes 15 % 64⟩ ∧ ipv4.attr bytes "ecn" = some ⟨2, byteAt bytes 15 / 64⟩ ∧
    (byteAt bytes 15 = 0xB8 → byteAt bytes 15 % 64 ≠ byteAt bytes 15 / 4 ∧ byteAt bytes 15 / 64 ≠ byteAt bytes 15 % 4) := by
  obtain ⟨b, hb, eb⟩ := byte_get (bytes := bytes) (i := 15) (by omega)
  have := b.toNat_lt
  refine ⟨?_, ?_, fun h => by rw [h]; decide⟩ <;>
    simp [Header.attr, ipv4, findAttr, readBits, readChunks, hb, dropLow, keepLow, Bv.concat, Bv.slice, eb]
  omega

/-- C40 is false: the flags are the three high bits of their byte (RFC 791), but the specification's
field has the three low bits, which belong to the fragment offset. -/
theorem C40_ipv4_flags_wrong (bytes : List UInt8) (h : 34 ≤ bytes.length) :
    ipv4.attr bytes "flags" = some ⟨3, byteAt bytes 20 % 8⟩ ∧
    (byteAt bytes 20 = 0x40 → byteAt bytes 20 % 8 = 0 ∧ byteAt bytes 20 / 32 = 2) := by
  obtain ⟨b, hb, eb⟩ := byte_get (bytes := bytes) (i := 20) (by omega)
  refine ⟨?_, fun h => by rw [h]; decide⟩
  simp [Header.attr, ipv4, findAttr, readBits, readChunks, hb, dropLow, keepLow, Bv.concat, Bv.slice, eb]

/-- C40: the ports are at byte 34, whatever the length of the IPv4 header. -/
theorem C40_ports_position (bytes : List UInt8) (h : 38 ≤ bytes.length) :
    tcpudp.attr bytes "src" = some ⟨16, byteAt bytes 34 + 256 * byteAt bytes 35⟩ ∧
    tcpudp.attr bytes "dst" = some ⟨16, byteAt bytes 36 + 256 * byteAt bytes 37⟩ := by
  obtain ⟨a, ha, ea⟩ := byte_get (bytes := bytes) (i := 34) (by omega)
  obtain ⟨b, hb, eb⟩ := byte_get (bytes := bytes) (i := 35) (by omega)
  obtain ⟨c, hc, ec⟩ := byte_get (bytes := bytes) (i := 36) (by omega)
  obtain ⟨d, hd, ed⟩ := byte_get (bytes := bytes) (i := 37) (by omega)
  constructor <;>
    simp [Header.attr, tcpudp, findAttr, readBits, readChunks, ha, hb, hc, hd, dropLow, keepLow, Bv.concat, ea, eb, ec, ed] <;> omega

/-- C40 (partial: IPv4 headers without options): the ports are the first bytes after the IPv4 header. -/
theorem C40_ports_partial (bytes : List UInt8) (h : 38 ≤ bytes.length) (hihl : byteAt bytes 14 % 16 = 5) :
    tcpudp.attr bytes "src" = some ⟨16, byteAt bytes (14 + 4 * (byteAt bytes 14 % 16)) + 256 * byteAt bytes (14 + 4 * (byteAt bytes 14 % 16) + 1)⟩ := by
  rw [hihl]; exact (C40_ports_position bytes h).1

/-- A packet with one option word, all ones, and ports zero. -/
def optionsPacket : List UInt8 := List.replicate 14 0 ++ [0x46] ++ List.replicate 19 0 ++ List.replicate 4 0xFF ++ List.replicate 8 0

/-- C40 is false: with options, what the specification sees as ports are the options. -/
theorem C40_ports_with_options_wrong : byteAt optionsPacket 14 % 16 = 6 ∧ tcpudp.attr optionsPacket "src" = some ⟨16, 0xFFFF⟩ ∧
    byteAt optionsPacket (14 + 4 * 6) + 256 * byteAt optionsPacket (14 + 4 * 6 + 1) = 0 := by decide

/-! ### C41 -/

open Verif.Nf Verif.Nf.Runtime in
/-- C41: for a transmission to another device, `devices` contains exactly that device, and its length
is one. -/
theorem C41_transmit (macs : Macs) (n : Nat) (h1 : macs.endpoint.length = n) (h2 : macs.device.length = n) (p : Packet)
    (hp : p.device < n) (hl : p.length ≠ 0) (d : Nat) (hd : d < n) (hne : d ≠ p.device) (u : Bool) :
    ∃ m lens, emit macs n (List.replicate (n - 1) 0) (.transmit p d u) = some (m, lens) ∧
      (∀ d', contains (record (.transmit p d u)) d' = (sent p.device lens d').isSome) ∧
      length (record (.transmit p d u)) n = ((List.range n).filter fun d' => (sent p.device lens d').isSome).length := by
  obtain ⟨m, lens, g1, g2, -⟩ := C49_transmit macs n h1 h2 p hp hl d hd hne u
  refine ⟨m, lens, g1, ?_, ?_⟩
  · intro d'
    rw [g2]
    by_cases h : d' = d <;> simp [record, contains, h]
  · have hf : (fun d' => (sent p.device lens d').isSome) = fun d' => d' == d := by
      funext d'
      rw [g2]
      by_cases h : d' = d <;> simp [h]
    rw [hf]
    have hc : ((List.range n).filter fun d' => d' == d).length = (List.range n).count d := by
      rw [List.count_eq_length_filter]
    rw [hc, List.count_range]
    simp [length, record, hd]

theorem count_others (n i : Nat) (hi : i < n) : ((List.range n).filter fun d => decide (d ≠ i)).length = n - 1 := by
  have h := List.length_eq_countP_add_countP (l := List.range n) (p := fun d => d == i)
  rw [List.length_range] at h
  have h1 : (List.range n).countP (fun d => d == i) = 1 := by
    have : (List.range n).count i = 1 := by rw [List.count_range]; simp [hi]
    exact this
  have h2 : (List.range n).countP (fun d => decide ¬(d == i) = true) = ((List.range n).filter fun d => decide (d ≠ i)).length := by
    rw [List.countP_eq_length_filter]
    congr 2
    funext d
    by_cases h : d = i <;> simp [h]
  omega

open Verif.Nf Verif.Nf.Runtime in
/-- C41 (partial: for the devices that exist): when flooding, `devices` contains exactly the devices
the packet is sent on, and its length is their number. -/
theorem C41_flood_partial (macs : Macs) (n : Nat) (h1 : macs.endpoint.length = n) (h2 : macs.device.length = n) (p : Packet)
    (hp : p.device < n) (hl : p.length ≠ 0) (u : Bool) :
    ∃ m lens, emit macs n (List.replicate (n - 1) 0) (.flood p u) = some (m, lens) ∧
      (∀ d', d' < n → contains (record (.flood p u)) d' = (sent p.device lens d').isSome) ∧
      length (record (.flood p u)) n = ((List.range n).filter fun d' => (sent p.device lens d').isSome).length := by
  obtain ⟨m, lens, g1, g2, -⟩ := C49_flood macs n h1 h2 p hp hl u
  refine ⟨m, lens, g1, ?_, ?_⟩
  · intro d' hd'
    rw [g2]
    by_cases h : d' = p.device <;> simp [record, contains, h, hd']
  · have hf : (List.range n).filter (fun d' => (sent p.device lens d').isSome) = (List.range n).filter fun d => decide (d ≠ p.device) := by
      apply List.filter_congr
      intro d' hd'
      rw [g2]
      have := List.mem_range.mp hd'
      by_cases h : d' = p.device <;> simp [h, this]
    rw [hf, count_others n p.device hp]
    simp [length, record]

/-- C41 is false for devices that do not exist: when flooding, `devices` contains them. -/
theorem C41_flood_contains_others (p : Nf.Packet) (u : Bool) (d : Nat) (hd : d ≠ p.device) : contains (record (.flood p u)) d = true := by
  simp [record, contains, hd]

open Verif.Nf Verif.Nf.Runtime in
/-- C41 (partial: no device but the packet's own is excluded): likewise for flooding with exceptions. -/
theorem C41_flood_except_partial (macs : Macs) (n : Nat) (h1 : macs.endpoint.length = n) (h2 : macs.device.length = n) (p : Packet)
    (hp : p.device < n) (hl : p.length ≠ 0) (u : Bool) (dis : List Bool) (hdis : dis.length = n)
    (hnone : ∀ d, d < n → d ≠ p.device → dis[d]? = some false) :
    ∃ m lens, emit macs n (List.replicate (n - 1) 0) (.floodExcept p dis u) = some (m, lens) ∧
      (∀ d', d' < n → contains (record (.floodExcept p dis u)) d' = (sent p.device lens d').isSome) ∧
      length (record (.floodExcept p dis u)) n = ((List.range n).filter fun d' => (sent p.device lens d').isSome).length := by
  obtain ⟨m, lens, g1, g2, -⟩ := C49_flood_except macs n h1 h2 p hp hl u dis hdis
  refine ⟨m, lens, g1, ?_, ?_⟩
  · intro d' hd'
    rw [g2]
    by_cases h : d' = p.device
    · simp [record, contains, h]
    · simp [record, contains, h, hd', hnone d' hd' h]
  · have hf : (List.range n).filter (fun d' => (sent p.device lens d').isSome) = (List.range n).filter fun d => decide (d ≠ p.device) := by
      apply List.filter_congr
      intro d' hd'
      rw [g2]
      have := List.mem_range.mp hd'
      by_cases h : d' = p.device
      · simp [h]
      · simp [h, this, hnone d' this h]
    rw [hf, count_others n p.device hp]
    simp [length, record]

open Verif.Nf Verif.Nf.Runtime in
/-- C41 is false: excluded devices are in `devices` although the packet is not sent on them. -/
theorem C41_flood_except_ignores_exclusions (macs : Macs) (n : Nat) (h1 : macs.endpoint.length = n) (h2 : macs.device.length = n) (p : Packet)
    (hp : p.device < n) (hl : p.length ≠ 0) (u : Bool) (dis : List Bool) (hdis : dis.length = n) (d : Nat) (hd : d ≠ p.device)
    (hoff : dis[d]? = some true) :
    ∃ m lens, emit macs n (List.replicate (n - 1) 0) (.floodExcept p dis u) = some (m, lens) ∧
      contains (record (.floodExcept p dis u)) d = true ∧ sent p.device lens d = none := by
  obtain ⟨m, lens, g1, g2, -⟩ := C49_flood_except macs n h1 h2 p hp hl u dis hdis
  refine ⟨m, lens, g1, by simp [record, contains, hd], ?_⟩
  rw [g2]; simp [hoff]

/-- The hypotheses are met by a packet from device 1 of three, with device 2 excluded. -/
example : contains (record (.floodExcept ⟨fun _ => 0, 60, 0, 1⟩ [false, false, true] false)) 2 = true ∧
    length (record (.floodExcept ⟨fun _ => 0, 60, 0, 1⟩ [false, false, true] false)) 3 = 2 ∧
    (Nf.Runtime.emit ⟨[[0], [1], [2]], [[10], [11], [12]]⟩ 3 [0, 0] (.floodExcept ⟨fun _ => 0, 60, 0, 1⟩ [false, false, true] false)).map
      (fun r => (List.range 3).map (Nf.Runtime.sent 1 r.2)) = some [some 60, none, none] := by decide

end Verif.Props
