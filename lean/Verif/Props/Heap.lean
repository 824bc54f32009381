/- The symbolic heap (C30, C31) and the memory of descriptor rings and agents (C32). -/
import Verif.Tool.Heap
import Mathlib.Tactic.Ring
import Mathlib.Tactic.Linarith

set_option autoImplicit false

namespace Verif.Tool.Heap

/-- The memory of an allocation as one sequence of bits, element after element. -/
def Obj.bit (o : Obj) (i : Nat) : Bool := (o.contents (i / o.width)).1.getD (i % o.width) false

/-- Every element has the same, positive number of bits. -/
structure Obj.Sized (o : Obj) : Prop where
  pos : 0 < o.width
  length : ∀ k, (o.contents k).1.length = o.width

theorem chunkOf_length {width offset : Nat} {rest : Bits} (h : offset < width) : (chunkOf width offset rest).length = min rest.length (width - offset) := by
  unfold chunkOf
  by_cases h0 : offset = 0
  · simp [h0]
  · simp only [h0, ne_eq, not_false_eq_true, if_true, List.length_take]; omega

theorem chunkOf_get {width offset : Nat} {rest : Bits} (h : offset < width) {j : Nat} (hj : j < (chunkOf width offset rest).length) :
    (chunkOf width offset rest).getD j false = rest.getD j false := by
  have hl := chunkOf_length (rest := rest) h
  rw [hl] at hj
  unfold chunkOf
  by_cases h0 : offset = 0
  · simp only [h0, ne_eq, not_true, if_false, List.getD_eq_getElem?_getD, List.getElem?_take]
    rw [if_pos (by omega)]
  · simp only [h0, ne_eq, not_false_eq_true, if_true, List.getD_eq_getElem?_getD, List.getElem?_take, List.length_take]
    rw [if_pos (by omega), if_pos (by omega)]

theorem merged_spec {width offset : Nat} {chunk current : Bits} (hc : current.length = width) (ho : offset + chunk.length ≤ width) (hne : chunk.length = width → offset = 0) :
    (merged width offset chunk current).length = width ∧ ∀ j < width, (merged width offset chunk current).getD j false =
      if offset ≤ j ∧ j < offset + chunk.length then chunk.getD (j - offset) false else current.getD j false := by
  unfold merged
  by_cases hw : chunk.length = width
  · have h0 := hne hw
    subst h0
    simp only [hw, ne_eq, not_true, if_false]
    refine ⟨trivial, fun j hj => ?_⟩
    rw [if_pos (by omega)]
    simp
  · by_cases h0 : offset = 0
    · subst h0
      simp only [hw, hc, ne_eq, not_false_eq_true, if_true, not_true, if_false]
      refine ⟨by simp [hc]; omega, fun j hj => ?_⟩
      simp only [List.getD_eq_getElem?_getD, List.getElem?_append, List.getElem?_drop]
      split
      · rename_i h; rw [if_pos (by omega)]; simp
      · rename_i h; rw [if_neg (by omega)]; congr 2; omega
    · have hl : (current.take offset).length = offset := by simp; omega
      simp only [hw, h0, ne_eq, not_false_eq_true, if_true, List.length_append, hl, hc]
      by_cases hf : offset + chunk.length = width
      · simp only [hf, not_true, if_false]
        refine ⟨by simp; omega, fun j hj => ?_⟩
        simp only [List.getD_eq_getElem?_getD, List.getElem?_append, hl, List.getElem?_take]
        split
        · rename_i h; rw [if_neg (by omega)]
        · rename_i h; rw [if_pos (by omega)]
      · simp only [hf, not_false_eq_true, if_true]
        refine ⟨by simp; omega, fun j hj => ?_⟩
        simp only [List.getD_eq_getElem?_getD, List.getElem?_append, hl, List.getElem?_take, List.length_append, List.getElem?_drop]
        split
        · split
          · rename_i h; rw [if_neg (by omega)]
          · rename_i h; rw [if_pos (by omega)]
        · rename_i h; rw [if_neg (by omega)]; congr 2; omega

theorem setElem_bit {o : Obj} (hs : o.Sized) {index offset : Nat} {v : Bits} {chunk : Bits} (ho : offset + chunk.length ≤ o.width)
    (hv : ∀ j < o.width, v.getD j false = if offset ≤ j ∧ j < offset + chunk.length then chunk.getD (j - offset) false else (o.contents index).1.getD j false) (i : Nat) :
    (o.setElem index v).bit i = if index * o.width + offset ≤ i ∧ i < index * o.width + offset + chunk.length then chunk.getD (i - (index * o.width + offset)) false else o.bit i := by
  have hw := hs.pos
  have hdm := Nat.div_add_mod i o.width
  have hlt := Nat.mod_lt i hw
  unfold Obj.bit Obj.setElem
  simp only
  generalize i / o.width = q at *
  generalize i % o.width = r at *
  by_cases hq : q = index
  · subst hq
    simp only [if_true]
    rw [hv r hlt, ← hdm]
    have e : q * o.width = o.width * q := Nat.mul_comm _ _
    rw [e]
    by_cases hc : offset ≤ r ∧ r < offset + chunk.length
    · rw [if_pos hc, if_pos (by omega)]; congr 1; omega
    · rw [if_neg hc, if_neg (by omega)]
  · simp only [hq, if_false]
    rw [if_neg]
    rintro ⟨h1, h2⟩
    rcases Nat.lt_or_gt_of_ne hq with h | h
    · have : (q + 1) * o.width ≤ index * o.width := Nat.mul_le_mul_right _ h
      nlinarith
    · have : (index + 1) * o.width ≤ q * o.width := Nat.mul_le_mul_right _ h
      nlinarith

/-- What writing does, in the byte order of the machine. -/
structure Written (o : Obj) (start : Nat) (index : Nat) (value : Bits) (o' : Obj) : Prop where
  width : o'.width = o.width
  sized : o'.Sized
  fractions : o'.fractions = o.fractions
  count : o'.count = o.count
  bits : ∀ i, o'.bit i = if start ≤ i ∧ i < start + value.length then value.getD (i - start) false else o.bit i
  owned : ∀ k, index ≤ k → k * o.width < start + value.length → o.canWrite k = true ∧ (o'.contents k).2 = true
  present : ∀ k, (o.contents k).2 = true → (o'.contents k).2 = true

theorem writeLoop_written : ∀ (fuel : Nat) {o o' : Obj} {index offset : Nat} {rest : Bits}, o.Sized → offset < o.width → rest.length ≤ fuel →
    index * o.width + offset + rest.length ≤ 2 ^ 64 * o.width → writeLoop false fuel o index offset rest = some o' →
    rest = [] ∧ o' = o ∨ Written o (index * o.width + offset) index rest o'
  | 0, o, o', index, offset, rest, hs, ho, hf, hr, h => by
    have : rest = [] := List.length_eq_zero_iff.1 (by omega)
    subst this
    simp only [writeLoop, List.length_nil, if_true, Option.some.injEq] at h
    exact .inl ⟨rfl, h.symm⟩
  | fuel + 1, o, o', index, offset, rest, hs, ho, hf, hr, h => by
    unfold writeLoop at h
    by_cases hz : rest.length = 0
    · simp only [hz, if_true, Option.some.injEq] at h
      exact .inl ⟨List.length_eq_zero_iff.1 hz, h.symm⟩
    simp only [hz, if_false] at h
    by_cases hcw : o.canWrite index = true
    swap
    · simp [hcw] at h
    simp only [hcw, if_true] at h
    have hl := chunkOf_length (rest := rest) ho
    have hcl : offset + (chunkOf o.width offset rest).length ≤ o.width := by omega
    have hpos : 0 < (chunkOf o.width offset rest).length := by omega
    obtain ⟨m1, m2⟩ := merged_spec (chunk := chunkOf o.width offset rest) (hs.length index) hcl (by omega)
    have hwe : writeElem o index offset (chunkOf o.width offset rest) false = some (o.setElem index (merged o.width offset (chunkOf o.width offset rest) (o.contents index).1)) := by
      simp [writeElem, maybeRev]
    rw [hwe] at h
    simp only at h
    have hbit := setElem_bit hs hcl m2
    set o1 := o.setElem index (merged o.width offset (chunkOf o.width offset rest) (o.contents index).1) with ho1
    have hs1 : o1.Sized := by
      refine ⟨hs.pos, fun k => ?_⟩
      show (if k = index then _ else _ : Bits × Bool).1.length = _
      split
      · exact m1
      · exact hs.length k
    have hidx : index < 2 ^ 64 := by
      have : index * o.width < 2 ^ 64 * o.width := by omega
      exact Nat.lt_of_mul_lt_mul_right this
    have hget : ∀ i, i < (chunkOf o.width offset rest).length → (chunkOf o.width offset rest).getD i false = rest.getD i false := fun i hi => chunkOf_get ho hi
    have hcon : ∀ k, (o1.contents k).2 = if k = index then true else (o.contents k).2 := by
      intro k
      show (if k = index then _ else _ : Bits × Bool).2 = _
      split <;> rfl
    have hcw1 : ∀ k, o1.canWrite k = o.canWrite k := fun k => rfl
    by_cases hlast : (chunkOf o.width offset rest).length = rest.length
    · -- the last element
      have hnil : rest.drop (chunkOf o.width offset rest).length = [] := by rw [hlast, List.drop_length]
      rw [hnil] at h
      have h' : o' = o1 := by
        cases fuel with
        | zero => simpa [writeLoop] using h.symm
        | succ n => simpa [writeLoop] using h.symm
      rw [h']
      right
      refine ⟨rfl, hs1, rfl, rfl, fun i => ?_, fun k hk hk' => ?_, fun k hk => by rw [hcon]; split <;> simp_all⟩
      · rw [hbit i, hlast]
        split
        · exact hget _ (by omega)
        · rfl
      · have : k = index := by
          by_contra hne
          have : (index + 1) * o.width ≤ k * o.width := Nat.mul_le_mul_right _ (by omega)
          have e : (index + 1) * o.width = index * o.width + o.width := by ring
          omega
        subst this
        exact ⟨hcw, by rw [hcon, if_pos rfl]⟩
    · -- more elements
      have hfull : offset + (chunkOf o.width offset rest).length = o.width := by omega
      have e : (index + 1) * o.width = index * o.width + o.width := by ring
      have hlen : (rest.drop (chunkOf o.width offset rest).length).length = rest.length - (chunkOf o.width offset rest).length := by simp
      have hmod : (index + 1) % 2 ^ 64 = index + 1 := by
        apply Nat.mod_eq_of_lt
        have : (index + 1) * o.width < 2 ^ 64 * o.width := by omega
        exact Nat.lt_of_mul_lt_mul_right this
      rw [hmod] at h
      rcases writeLoop_written fuel hs1 (show 0 < o1.width from hs.pos) (by rw [hlen]; omega)
        (by
          rw [hlen]
          show (index + 1) * o.width + 0 + _ ≤ 2 ^ 64 * o.width
          omega) h with ⟨h1, -⟩ | hW
      · have := congrArg List.length h1
        rw [hlen] at this
        simp only [List.length_nil] at this
        omega
      · right
        have hb := hW.bits
        have hw1 : o1.width = o.width := rfl
        rw [hlen] at hb
        refine ⟨hW.width, hW.sized, hW.fractions, hW.count, fun i => ?_, fun k hk hk' => ?_, fun k hk => ?_⟩
        · rw [hb i, hw1, hbit i]
          by_cases h1 : (index + 1) * o.width + 0 ≤ i ∧ i < (index + 1) * o.width + 0 + (rest.length - (chunkOf o.width offset rest).length)
          · rw [if_pos h1, if_pos (by omega)]
            simp only [List.getD_eq_getElem?_getD, List.getElem?_drop]
            congr 2; omega
          · rw [if_neg h1]
            by_cases h2 : index * o.width + offset ≤ i ∧ i < index * o.width + offset + (chunkOf o.width offset rest).length
            · rw [if_pos h2, if_pos (by omega)]
              exact hget _ (by omega)
            · rw [if_neg h2, if_neg (by omega)]
        · rcases Nat.eq_or_lt_of_le hk with rfl | hlt
          · exact ⟨hcw, hW.present _ (by rw [hcon, if_pos rfl])⟩
          · exact hW.owned k hlt (by rw [hlen, hw1]; omega)
        · exact hW.present k (by rw [hcon]; split <;> simp_all)

theorem readLoop_spec {o : Obj} (hs : o.Sized) {base total : Nat} (hr : base + total ≤ 2 ^ 64 * o.width) : ∀ (fuel : Nat) {index : Nat} {result r : Bits},
    (index * o.width = base + result.length ∨ total ≤ result.length) → (∀ j < result.length, result.getD j false = o.bit (base + j)) →
    readLoop o total fuel index result = some r → total ≤ r.length ∧ ∀ j < r.length, r.getD j false = o.bit (base + j)
  | 0, index, result, r, hi, hb, h => by
    unfold readLoop at h
    split at h
    · simp at h
    · simp only [Option.some.injEq] at h; subst h; exact ⟨by omega, hb⟩
  | fuel + 1, index, result, r, hi, hb, h => by
    unfold readLoop at h
    split at h
    swap
    · simp only [Option.some.injEq] at h; subst h; exact ⟨by omega, hb⟩
    rename_i hlt
    split at h
    swap
    · simp at h
    have hi' : index * o.width = base + result.length := by omega
    have hw := hs.pos
    have hl := hs.length index
    have e : (index + 1) * o.width = index * o.width + o.width := by ring
    refine readLoop_spec hs hr fuel ?_ ?_ h
    · simp only [List.length_append, hl]
      by_cases hc : index + 1 < 2 ^ 64
      · left; rw [Nat.mod_eq_of_lt hc]; omega
      · right
        have : 2 ^ 64 * o.width ≤ (index + 1) * o.width := Nat.mul_le_mul_right _ (by omega)
        omega
    · intro j hj
      simp only [List.length_append, hl] at hj
      simp only [List.getD_eq_getElem?_getD, List.getElem?_append]
      split
      · have := hb j (by assumption)
        simpa [List.getD_eq_getElem?_getD] using this
      · rename_i hge
        have hq : (base + j) / o.width = index := by
          rw [show base + j = (j - result.length) + o.width * index by rw [Nat.mul_comm]; omega]
          rw [Nat.add_mul_div_left _ _ hw, Nat.div_eq_of_lt (by omega)]; omega
        have hm : (base + j) % o.width = j - result.length := by
          rw [show base + j = (j - result.length) + o.width * index by rw [Nat.mul_comm]; omega]
          rw [Nat.add_mul_mod_self_left, Nat.mod_eq_of_lt (by omega)]
        unfold Obj.bit
        rw [hq, hm, List.getD_eq_getElem?_getD]

theorem readLoop_some {o : Obj} (hs : o.Sized) {total base : Nat} (hr : base + total ≤ 2 ^ 64 * o.width) (hc : ∀ k, base ≤ k * o.width → k * o.width < base + total → o.canRead k = true) :
    ∀ (fuel : Nat) {index : Nat} {result : Bits}, (index * o.width = base + result.length ∨ total ≤ result.length) → total ≤ result.length + fuel →
    ∃ r, readLoop o total fuel index result = some r
  | 0, index, result, hi, hf => ⟨result, by unfold readLoop; rw [if_neg (by omega)]⟩
  | fuel + 1, index, result, hi, hf => by
    unfold readLoop
    by_cases hlt : result.length < total
    · rw [if_pos hlt, if_pos (hc index (by omega) (by omega))]
      have hw := hs.pos
      have hl := hs.length index
      have e : (index + 1) * o.width = index * o.width + o.width := by ring
      refine readLoop_some hs hr hc fuel ?_ ?_
      · simp only [List.length_append, hl]
        by_cases hc : index + 1 < 2 ^ 64
        · left; rw [Nat.mod_eq_of_lt hc]; omega
        · right
          have : 2 ^ 64 * o.width ≤ (index + 1) * o.width := Nat.mul_le_mul_right _ (by omega)
          omega
      · simp only [List.length_append, hl]; omega
    · rw [if_neg hlt]; exact ⟨_, rfl⟩

theorem writeLoop_some : ∀ (fuel : Nat) {o : Obj} {index offset : Nat} {rest : Bits}, o.Sized → offset < o.width → rest.length ≤ fuel →
    index * o.width + offset + rest.length ≤ 2 ^ 64 * o.width → (∀ k, index ≤ k → k * o.width < index * o.width + offset + rest.length → o.canWrite k = true) →
    ∃ o', writeLoop false fuel o index offset rest = some o'
  | 0, o, index, offset, rest, _, _, hf, _, _ => ⟨o, by unfold writeLoop; rw [if_pos (by omega)]⟩
  | fuel + 1, o, index, offset, rest, hs, ho, hf, hr, hc => by
    unfold writeLoop
    by_cases hz : rest.length = 0
    · rw [if_pos hz]; exact ⟨o, rfl⟩
    rw [if_neg hz, if_pos (hc index (Nat.le_refl _) (by omega))]
    have hl := chunkOf_length (rest := rest) ho
    have hcl : offset + (chunkOf o.width offset rest).length ≤ o.width := by omega
    obtain ⟨m1, m2⟩ := merged_spec (chunk := chunkOf o.width offset rest) (hs.length index) hcl (by omega)
    have hwe : writeElem o index offset (chunkOf o.width offset rest) false = some (o.setElem index (merged o.width offset (chunkOf o.width offset rest) (o.contents index).1)) := by
      simp [writeElem, maybeRev]
    simp only [hwe]
    set o1 := o.setElem index (merged o.width offset (chunkOf o.width offset rest) (o.contents index).1) with ho1
    have hs1 : o1.Sized := by
      refine ⟨hs.pos, fun k => ?_⟩
      show (if k = index then _ else _ : Bits × Bool).1.length = _
      split
      · exact m1
      · exact hs.length k
    by_cases hlast : (chunkOf o.width offset rest).length = rest.length
    · have hnil : rest.drop (chunkOf o.width offset rest).length = [] := by rw [hlast, List.drop_length]
      rw [hnil]
      cases fuel with
      | zero => exact ⟨o1, by simp [writeLoop]⟩
      | succ n => exact ⟨o1, by simp [writeLoop]⟩
    · have e : (index + 1) * o.width = index * o.width + o.width := by ring
      have hlen : (rest.drop (chunkOf o.width offset rest).length).length = rest.length - (chunkOf o.width offset rest).length := by simp
      have hmod : (index + 1) % 2 ^ 64 = index + 1 := by
        apply Nat.mod_eq_of_lt
        have : (index + 1) * o.width < 2 ^ 64 * o.width := by omega
        exact Nat.lt_of_mul_lt_mul_right this
      rw [hmod]
      refine writeLoop_some fuel hs1 hs.pos (by rw [hlen]; omega) ?_ fun k hk hk' => hc k (by omega) ?_
      · rw [hlen]
        show (index + 1) * o.width + 0 + _ ≤ 2 ^ 64 * o.width
        omega
      · rw [hlen] at hk'
        change k * o.width < (index + 1) * o.width + 0 + _ at hk'
        omega

theorem revBytes_length (x : Bits) : (revBytes x).length = x.length := by simp [revBytes]

theorem revBytes_get {x : Bits} {j : Nat} (hj : j < x.length) : (revBytes x).getD j false = x.getD (x.length - 8 - 8 * (j / 8) + j % 8) false := by
  unfold revBytes
  rw [List.getD_eq_getElem?_getD, List.getElem?_map, List.getElem?_range hj]
  rfl

theorem bits_ext {x y : Bits} (hl : x.length = y.length) (h : ∀ j < x.length, x.getD j false = y.getD j false) : x = y := by
  refine List.ext_getElem hl fun j h1 h2 => ?_
  have := h j h1
  simpa [List.getD_eq_getElem?_getD, h1, h2] using this

theorem revBytes_revBytes {x : Bits} (h : x.length % 8 = 0) : revBytes (revBytes x) = x := by
  refine bits_ext (by simp [revBytes]) fun j hj => ?_
  rw [revBytes_length, revBytes_length] at hj
  rw [revBytes_get (by rw [revBytes_length]; exact hj), revBytes_length, revBytes_get (by omega)]
  congr 1
  omega

theorem getD_drop_take (x : Bits) (a n j : Nat) (hj : j < n) : ((x.drop a).take n).getD j false = x.getD (a + j) false := by
  simp [List.getD_eq_getElem?_getD, hj]

/-- What reading does, in the byte order of the machine. -/
theorem read_spec {o : Obj} (hs : o.Sized) {index offset size : Nat} {r : Bits} (hr : index * o.width + offset + size * 8 ≤ 2 ^ 64 * o.width)
    (h : read o index offset size false = some r) : r.length = size * 8 ∧ ∀ j < size * 8, r.getD j false = o.bit (index * o.width + offset + j) := by
  unfold read at h
  cases hl : readLoop o (size * 8 + offset) (size * 8 + offset) index [] with
  | none => simp [hl] at h
  | some res =>
    simp only [hl, maybeRev, Bool.false_eq_true, if_false, Option.some.injEq] at h
    obtain ⟨h1, h2⟩ := readLoop_spec hs (base := index * o.width) (by omega) _ (.inl (by simp)) (by simp) hl
    subst h
    refine ⟨by simp; omega, fun j hj => ?_⟩
    rw [getD_drop_take _ _ _ _ hj, h2 _ (by omega), Nat.add_assoc]

end Verif.Tool.Heap

namespace Verif.Props

open Verif.Tool.Heap

/-- C30 in the byte order of the machine: a store changes exactly the bits it covers. -/
theorem C30_write {o o' : Obj} (hs : o.Sized) {index offset : Nat} {value : Bits} (ho : offset < o.width) (hne : value ≠ [])
    (hr : index * o.width + offset + value.length ≤ 2 ^ 64 * o.width) (h : write o index offset value false = some o') :
    o'.width = o.width ∧ o'.Sized ∧ ∀ i, o'.bit i =
      if index * o.width + offset ≤ i ∧ i < index * o.width + offset + value.length then value.getD (i - (index * o.width + offset)) false else o.bit i := by
  rcases writeLoop_written _ hs ho (Nat.le_refl _) hr h with ⟨h1, -⟩ | hW
  · exact absurd h1 hne
  · exact ⟨hW.width, hW.sized, hW.bits⟩

/-- C30 in the byte order of the machine: a load returns the bits at its place. -/
theorem C30_read {o : Obj} (hs : o.Sized) {index offset size : Nat} {r : Bits} (hr : index * o.width + offset + size * 8 ≤ 2 ^ 64 * o.width)
    (h : read o index offset size false = some r) : r.length = size * 8 ∧ ∀ j < size * 8, r.getD j false = o.bit (index * o.width + offset + j) :=
  read_spec hs hr h

/-- C30 in the byte order of the machine: after a store, which may cover several elements, loading the same bytes succeeds and returns the value. -/
theorem C30_read_after_write {o o' : Obj} (hs : o.Sized) {index offset size : Nat} {value : Bits} (ho : offset < o.width) (hz : 0 < size) (hv : value.length = size * 8)
    (hr : index * o.width + offset + value.length ≤ 2 ^ 64 * o.width) (h : write o index offset value false = some o') : read o' index offset size false = some value := by
  rcases writeLoop_written _ hs ho (Nat.le_refl _) hr h with ⟨h1, -⟩ | hW
  · simp [h1] at hv; omega
  · have hrd : ∀ k, index * o'.width ≤ k * o'.width → k * o'.width < index * o'.width + (size * 8 + offset) → o'.canRead k = true := by
      rw [hW.width]
      intro k hk hk'
      obtain ⟨g1, g2⟩ := hW.owned k (Nat.le_of_mul_le_mul_right hk hs.pos) (by omega)
      unfold Obj.canRead
      unfold Obj.canWrite at g1
      rw [hW.fractions]
      cases hf : o.fractions with
      | none => simpa using g2
      | some f => simp only [hf, Bool.and_eq_true, beq_iff_eq] at g1; simp [g1.1, g1.2]
    have hr' : index * o'.width + (size * 8 + offset) ≤ 2 ^ 64 * o'.width := by rw [hW.width]; omega
    obtain ⟨res, hres⟩ := readLoop_some hW.sized hr' hrd (size * 8 + offset) (index := index) (result := []) (.inl (by simp)) (by simp)
    have hread : ∃ r, read o' index offset size false = some r := by
      unfold Verif.Tool.Heap.read; simp only [hres]; exact ⟨_, rfl⟩
    obtain ⟨r, hread⟩ := hread
    obtain ⟨g1, g2⟩ := read_spec hW.sized (by rw [hW.width]; omega) hread
    rw [hread]
    congr 1
    refine bits_ext (by omega) fun j hj => ?_
    rw [g2 j (by omega), hW.bits, hW.width, if_pos (by omega)]
    congr 1; omega

/-- C30: a store of owned elements succeeds. -/
theorem C30_write_succeeds {o : Obj} (hs : o.Sized) {index offset : Nat} {value : Bits} (ho : offset < o.width)
    (hr : index * o.width + offset + value.length ≤ 2 ^ 64 * o.width)
    (hc : ∀ k, index ≤ k → k * o.width < index * o.width + offset + value.length → o.canWrite k = true) : ∃ o', write o index offset value false = some o' :=
  writeLoop_some _ hs ho (Nat.le_refl _) hr hc

/-- An array of four 16-bit elements, all owned. -/
def heapExample : Obj := ⟨4, 16, fun k => (List.replicate 16 (k == 2), decide (k < 4)), some fun k => (100, decide (k < 4))⟩

/-- A store of 4 bytes from the second byte of element 1 on meets the hypotheses, and covers three elements. -/
example : ∃ o', write heapExample 1 8 (List.replicate 32 true) false = some o' ∧ read o' 1 8 4 false = some (List.replicate 32 true) ∧
    ∀ i, o'.bit i = if 24 ≤ i ∧ i < 56 then (List.replicate 32 true).getD (i - 24) false else heapExample.bit i := by
  have hs : heapExample.Sized := ⟨by simp [heapExample], fun k => by simp [heapExample]⟩
  obtain ⟨o', h⟩ := C30_write_succeeds hs (index := 1) (offset := 8) (value := List.replicate 32 true) (by simp [heapExample]) (by simp [heapExample])
    (fun k hk hk' => by
      have : k < 4 := by simp [heapExample] at hk'; omega
      simp [Obj.canWrite, heapExample, this])
  refine ⟨o', h, C30_read_after_write hs (by simp [heapExample]) (by omega) (by simp) (by simp [heapExample]) h, ?_⟩
  have := (C30_write hs (by simp [heapExample]) (by simp) (by simp [heapExample]) h).2.2
  simpa [heapExample] using this

/-- C30 in the opposite byte order, within one element: loading the same bytes returns the value, and only that element changes. The full claim
is false in this byte order: `C30_reversed_wide`, `C30_reversed_other_bytes`. -/
theorem C30_reversed_partial {o o' : Obj} (hs : o.Sized) {index offset size : Nat} {value : Bits} (hz : 0 < size) (hv : value.length = size * 8)
    (ho : offset + value.length ≤ o.width) (h : write o index offset value true = some o') :
    read o' index offset size true = some value ∧ ∀ k, k ≠ index → o'.contents k = o.contents k := by
  have hoff : offset < o.width := by omega
  have hch : chunkOf o.width offset value = value := by
    refine bits_ext (by rw [chunkOf_length hoff]; omega) fun j hj => chunkOf_get hoff hj
  -- one iteration
  have hlen : value.length = (value.length - 1) + 1 := by omega
  unfold write at h
  rw [hlen] at h
  unfold writeLoop at h
  rw [if_neg (by omega)] at h
  split at h
  swap
  · simp at h
  rename_i hcw
  simp only [hch, List.drop_length] at h
  cases hwe : writeElem o index offset value true with
  | none => simp [hwe] at h
  | some o1 =>
    simp only [hwe] at h
    have e1 : o' = o1 := by
      cases hn : value.length - 1 with
      | zero => rw [hn] at h; simpa [writeLoop] using h.symm
      | succ n => rw [hn] at h; simpa [writeLoop] using h.symm
    subst e1
    unfold writeElem at hwe
    cases hm1 : maybeRev (true && value.length != o.width) (o.contents index).1 with
    | none => rw [hm1] at hwe; simp at hwe
    | some cur =>
      simp only [hm1] at hwe
      have hcur : cur.length = o.width := by
        unfold maybeRev reversed at hm1
        split at hm1
        · split at hm1
          · simp only [Option.some.injEq] at hm1; rw [← hm1, revBytes_length, hs.length]
          · simp at hm1
        · simp only [Option.some.injEq] at hm1; rw [← hm1, hs.length]
      obtain ⟨m1, m2⟩ := merged_spec hcur ho (by omega)
      set v := merged o.width offset value cur with hvdef
      have hm2 : maybeRev true v = if o.width % 8 = 0 then some (revBytes v) else none := by simp [maybeRev, reversed, m1]
      rw [hm2] at hwe
      by_cases hw8 : o.width % 8 = 0
      swap
      · simp [hw8] at hwe
      simp only [hw8, if_true, Option.some.injEq] at hwe
      subst hwe
      have hcont : ((o.setElem index (revBytes v)).contents index) = (revBytes v, true) := by simp [Obj.setElem]
      refine ⟨?_, fun k hk => by simp [Obj.setElem, hk]⟩
      have hcr : (o.setElem index (revBytes v)).canRead index = true := by
        unfold Obj.canRead
        show (match o.fractions with | none => _ | some f => _) = true
        unfold Obj.canWrite at hcw
        cases hf : o.fractions with
        | none => simp [hcont]
        | some f => simp only [hf, Bool.and_eq_true, beq_iff_eq] at hcw; simp [hcw.1, hcw.2]
      have hloop : readLoop (o.setElem index (revBytes v)) (size * 8 + offset) (size * 8 + offset) index [] = some (revBytes v) := by
        have : size * 8 + offset = (size * 8 + offset - 1) + 1 := by omega
        conv_lhs => rw [this]
        unfold readLoop
        rw [if_pos (by simp only [List.length_nil]; omega), if_pos hcr, hcont]
        have hn : ¬ ((([] : Bits) ++ revBytes v).length < size * 8 + offset - 1 + 1) := by
          rw [List.nil_append, revBytes_length, m1]; omega
        cases hk : size * 8 + offset - 1 with
        | zero => unfold readLoop; rw [hk] at hn; rw [if_neg hn]; simp
        | succ n => unfold readLoop; rw [hk] at hn; rw [if_neg hn]; simp
      unfold Verif.Tool.Heap.read
      rw [hloop]
      have hmr : maybeRev true (revBytes v) = some v := by
        simp only [maybeRev, reversed, if_true, revBytes_length, m1, hw8]
        rw [revBytes_revBytes (by rw [m1]; exact hw8)]
      simp only [hmr, Option.some.injEq]
      refine bits_ext (by simp [m1]; omega) fun j hj => ?_
      simp only [List.length_take, List.length_drop, m1] at hj
      rw [getD_drop_take _ _ _ _ (by omega), m2 _ (by omega), if_pos (by omega)]
      congr 1; omega

/-- Storing the second byte of an element in the opposite byte order. -/
example : ∃ o', write heapExample 1 8 (List.replicate 8 true) true = some o' ∧ read o' 1 8 1 true = some (List.replicate 8 true) := by
  refine ⟨_, rfl, ?_⟩
  exact (C30_reversed_partial (o := heapExample) ⟨by simp [heapExample], fun k => by simp [heapExample]⟩ (by omega) (by simp) (by simp [heapExample]) rfl).1

/-- C30: storing a whole element in the opposite byte order is storing its bytes in the opposite order. -/
theorem C30_reversed_whole_partial {o : Obj} (hs : o.Sized) (h8 : o.width % 8 = 0) {index : Nat} {value : Bits} (hv : value.length = o.width) :
    write o index 0 value true = write o index 0 (revBytes value) false := by
  have hw := hs.pos
  have hch : ∀ x : Bits, x.length = o.width → chunkOf o.width 0 x = x := fun x hx =>
    bits_ext (by rw [chunkOf_length hw]; omega) fun j hj => chunkOf_get hw hj
  have hm : ∀ x c : Bits, x.length = o.width → merged o.width 0 x c = x := fun x c hx => by simp [merged, hx]
  unfold write
  rw [revBytes_length]
  cases hn : value.length with
  | zero => omega
  | succ n =>
    unfold writeLoop
    simp only [hch value hv, hch (revBytes value) (by rw [revBytes_length]; exact hv), revBytes_length, hn, Nat.succ_ne_zero, if_false]
    have e1 : writeElem o index 0 value true = some (o.setElem index (revBytes value)) := by
      simp [writeElem, hv, maybeRev, hm value _ hv, reversed, h8]
    have e2 : writeElem o index 0 (revBytes value) false = some (o.setElem index (revBytes value)) := by
      simp [writeElem, maybeRev, hm (revBytes value) _ (by rw [revBytes_length]; exact hv)]
    rw [e1, e2]
    have d1 : value.drop (n + 1) = [] := by rw [← hn, List.drop_length]
    have d2 : (revBytes value).drop (n + 1) = [] := by rw [← hn, ← revBytes_length, List.drop_length]
    simp only [d1, d2]
    cases n <;> simp [writeLoop]

example : write heapExample 1 0 (List.replicate 8 true ++ List.replicate 8 false) true =
    write heapExample 1 0 (revBytes (List.replicate 8 true ++ List.replicate 8 false)) false ∧
    revBytes (List.replicate 8 true ++ List.replicate 8 false) = List.replicate 8 false ++ List.replicate 8 true :=
  ⟨C30_reversed_whole_partial ⟨by simp [heapExample], fun k => by simp [heapExample]⟩ (by simp [heapExample]) (by simp [heapExample]), by decide⟩

/-- C30 is false of loads and stores wider than an element in the opposite byte order: the value read back is another. -/
theorem C30_reversed_wide : ∃ (o o' : Obj) (value r : Bits), o.Sized ∧ write o 0 0 value true = some o' ∧ value.length = 16 ∧ read o' 0 0 2 true = some r ∧ r ≠ value := by
  refine ⟨⟨2, 8, fun k => (List.replicate 8 false, decide (k < 2)), none⟩, _, List.replicate 8 true ++ List.replicate 8 false, _, ⟨by simp, by simp⟩, rfl, rfl, rfl, ?_⟩
  decide

/-- C30 is false of stores narrower than an element in the opposite byte order: storing the first byte changes another one. -/
theorem C30_reversed_other_bytes : ∃ (o o' : Obj) (value : Bits), o.Sized ∧ write o 0 0 value true = some o' ∧ value.length = 8 ∧
    o'.bit 8 ≠ o.bit 8 ∧ ∀ i < 8, o'.bit i = o.bit i := by
  refine ⟨⟨1, 16, fun k => (List.replicate 16 false, decide (k < 1)), none⟩, _, List.replicate 8 true, ⟨by simp, by simp⟩, rfl, rfl, ?_⟩
  decide

end Verif.Props
