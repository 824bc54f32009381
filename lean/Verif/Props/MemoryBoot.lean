/- Property C58: the memory that the allocator is given at start. -/
import Verif.Env.MemoryBoot
import Verif.Props.MemoryAlloc

set_option autoImplicit false

namespace Verif.Props
open Verif.MemoryBoot

/-! ### C58 The allocator hands out the memory that was reserved for it -/

/-- The histories of the allocator from a given start: requests that were granted, and stores
inside granted blocks. -/
inductive BootHist (s0 : State) : State → List C05.Block → Prop
  | init : BootHist s0 s0 []
  | alloc {s s' bs count size addr} : BootHist s0 s bs → count * size ≤ 2 ^ 64 - 1 →
      alloc s count size = some (addr, s') → BootHist s0 s' (⟨addr, count * size, size⟩ :: bs)
  | write {s bs} (b : C05.Block) (a : Nat) (v : UInt8) : BootHist s0 s bs → b ∈ bs → b.has a → BootHist s0 (write s a v) bs

theorem loadPtr_storePtr (m : Mem) (a p : Nat) (hp : p < 2 ^ 64) : loadPtr (storePtr m a p) a = p := by
  unfold loadPtr storePtr
  simp only [Nat.le_refl, Nat.le_add_right, Nat.add_lt_add_iff_left, true_and, Nat.add_sub_cancel_left, Nat.sub_self,
    UInt8.toNat_ofNat', if_true, Nat.lt_add_right_iff_pos, Nat.reduceLT, Nat.reduceMul, Nat.reducePow]
  omega

theorem loadPtr_congr {m m' : Mem} {a : Nat} (h : ∀ x, a ≤ x → x < a + 8 → m' x = m x) : loadPtr m' a = loadPtr m a := by
  unfold loadPtr
  rw [h a (by omega) (by omega), h (a + 1) (by omega) (by omega), h (a + 2) (by omega) (by omega), h (a + 3) (by omega) (by omega),
    h (a + 4) (by omega) (by omega), h (a + 5) (by omega) (by omega), h (a + 6) (by omega) (by omega), h (a + 7) (by omega) (by omega)]

/-- On Linux the allocator hands out the mapped page: every history is one that C05 is about,
with the page as arena, so blocks lie in it, are zeroed and do not overlap. Missing: bare metal. -/
theorem C58_linux_partial (slot base : Nat) (mem : Mem) (h0 : base ≠ 0) (h1 : base + 268435456 ≤ 2 ^ 64 - 1)
    (hz : ∀ a, base ≤ a → a < base + 268435456 → mem a = 0) (hout : slot + 8 ≤ base ∨ base + 268435456 ≤ slot)
    (s : State) (bs : List C05.Block) (h : BootHist (linux slot base mem) s bs) :
    s.symbol = slot ∧ C05.Hist base { memory := loadPtr s.mem slot, usedLen := s.usedLen, mem := s.mem } bs := by
  induction h with
  | init =>
    refine ⟨rfl, ?_⟩
    have : loadPtr (linux slot base mem).mem slot = base := loadPtr_storePtr mem slot base (by omega)
    rw [this]
    refine C05.Hist.init _ h0 h1 fun a ha hb => ?_
    show storePtr mem slot base a = 0
    unfold storePtr
    rw [if_neg (by omega), hz a ha hb]
  | @alloc s s' bs count size addr _ hc ha ih =>
    obtain ⟨hs, hh⟩ := ih
    unfold alloc at ha
    cases hr : MemoryAlloc.alloc (view s) count size with
    | none => rw [hr] at ha; cases ha
    | some p =>
      obtain ⟨addr', m'⟩ := p
      rw [hr] at ha
      cases ha
      refine ⟨hs, ?_⟩
      have hv : view s = { memory := loadPtr s.mem slot, usedLen := s.usedLen, mem := s.mem } := by unfold view; rw [hs]
      rw [← hv] at hh
      have hn := C05.Hist.alloc hh hc hr
      have hm : m' = { memory := loadPtr s.mem slot, usedLen := m'.usedLen, mem := s.mem } := by
        have hcs := C05.alloc_cases (view s) count size (C05.hist_inv hh).2.2.2.1 hc
        simp only at hcs
        rw [hr] at hcs
        split at hcs
        · cases hcs
          rw [hv]
        · cases hcs
      rw [hm] at hn
      exact hn
  | @write s bs b a v _ hb hin ih =>
    obtain ⟨hs, hh⟩ := ih
    refine ⟨hs, ?_⟩
    obtain ⟨q1, _, _, q4, _, q6, _⟩ := C05.hist_inv hh
    obtain ⟨w1, w2, _⟩ := q6 b hb
    have hn := C05.Hist.write b a v hh hb hin
    have : loadPtr (write s a v).mem slot = loadPtr s.mem slot := by
      refine loadPtr_congr fun x x1 x2 => ?_
      simp only [write, Memory.store]
      rw [if_neg]
      rintro rfl
      simp only [C05.Block.has] at hin
      dsimp only at w2 q4
      omega
    rw [this]
    exact hn

theorem loadPtr_zero {m : Mem} {a : Nat} (h : ∀ x, a ≤ x → x < a + 8 → m x = 0) : loadPtr m a = 0 := by
  unfold loadPtr
  rw [h a (by omega) (by omega), h (a + 1) (by omega) (by omega), h (a + 2) (by omega) (by omega), h (a + 3) (by omega) (by omega),
    h (a + 4) (by omega) (by omega), h (a + 5) (by omega) (by omega), h (a + 6) (by omega) (by omega), h (a + 7) (by omega) (by omega)]
  rfl

/-- On bare metal the first request that fits is granted at address 0, whatever the request
and wherever the array is. -/
theorem C58_metal_null (array : Nat) (mem : Mem) (hz : ∀ a, array ≤ a → a < array + 268435456 → mem a = 0)
    (count size : Nat) (hs : size ≤ 268435456) (hc : count * size ≤ 268435456) :
    ∃ s', alloc (metal array mem) count size = some (0, s') := by
  have hp : loadPtr mem array = 0 := loadPtr_zero fun x x1 x2 => hz x x1 (by omega)
  have hv : view (metal array mem) = { memory := 0, usedLen := 0, mem := mem } := by
    simp only [view, metal, hp]
  have hcs := C05.alloc_cases { memory := 0, usedLen := 0, mem := mem } count size (Nat.zero_le _) (by omega)
  have e : C05.alignUp (0 + 0) (C05.alignment size) = 0 := by
    have := C05.alignment_pos size
    unfold C05.alignUp
    rw [Nat.div_eq_of_lt (by omega), Nat.zero_mul]
  simp only [e] at hcs
  rw [if_pos (by omega)] at hcs
  unfold alloc
  rw [hv, hcs]
  exact ⟨_, rfl⟩

/-- On bare metal, as long as the program stores nothing in the array, every block is taken
from the first 256 MB of the address space. So if the array is above them no block is in it. -/
theorem C58_metal_low (array : Nat) (mem : Mem) (hz : ∀ a, array ≤ a → a < array + 268435456 → mem a = 0) (harray : 268435456 ≤ array)
    (s : State) (bs : List C05.Block) (h : BootHist (metal array mem) s bs) :
    ∀ b ∈ bs, b.addr + b.len ≤ array := by
  suffices hi : s.symbol = array ∧ s.usedLen ≤ 268435456 ∧ (∀ a, array ≤ a → a < array + 268435456 → s.mem a = 0) ∧
      ∀ b ∈ bs, b.addr + b.len ≤ 268435456 from fun b hb => Nat.le_trans (hi.2.2.2 b hb) harray
  induction h with
  | init => exact ⟨rfl, Nat.zero_le _, hz, by simp⟩
  | @alloc s s' bs count size addr _ hc ha ih =>
    obtain ⟨i1, i2, i3, i4⟩ := ih
    unfold alloc at ha
    have hp : loadPtr s.mem s.symbol = 0 := loadPtr_zero fun x x1 x2 => i3 x (by omega) (by omega)
    have hv : view s = { memory := 0, usedLen := s.usedLen, mem := s.mem } := by simp only [view, hp]
    have hcs := C05.alloc_cases { memory := 0, usedLen := s.usedLen, mem := s.mem } count size i2 hc
    simp only at hcs
    rw [hv, hcs] at ha
    by_cases hfit : size ≤ 2 ^ 64 - 1 - 64 ∧ C05.alignUp (0 + s.usedLen) (C05.alignment size) + count * size ≤ 0 + 268435456
    · rw [if_pos hfit] at ha
      cases ha
      refine ⟨i1, ?_, i3, ?_⟩
      · dsimp only; omega
      · intro b hb
        rcases List.mem_cons.1 hb with rfl | hb
        · dsimp only; omega
        · exact i4 b hb
    · rw [if_neg hfit] at ha
      cases ha
  | @write s bs b a v _ hb hin ih =>
    obtain ⟨i1, i2, i3, i4⟩ := ih
    refine ⟨i1, i2, fun x x1 x2 => ?_, i4⟩
    simp only [write, Memory.store]
    rw [if_neg, i3 x x1 x2]
    rintro rfl
    have := i4 b hb
    simp only [C05.Block.has] at hin
    omega

/-- On bare metal a block need not be zeroed: the first one is not if the byte at address 0 is not. -/
theorem C58_metal_not_zeroed : ∃ (array : Nat) (mem : Mem) (s' : State), (∀ a, array ≤ a → a < array + 268435456 → mem a = 0) ∧
    alloc (metal array mem) 1 8 = some (0, s') ∧ s'.mem 0 ≠ 0 := by
  let mem : Mem := fun x => if x < 0x200000 then 7 else 0
  have hz : ∀ a, 0x200000 ≤ a → a < 0x200000 + 268435456 → mem a = 0 := fun a ha _ => by simp [mem, ha]
  obtain ⟨s', hs⟩ := C58_metal_null 0x200000 mem hz 1 8 (by decide) (by decide)
  refine ⟨_, mem, s', hz, hs, ?_⟩
  have : s'.mem = mem := by
    unfold alloc at hs
    cases hr : MemoryAlloc.alloc (view (metal 0x200000 mem)) 1 8 with
    | none => rw [hr] at hs; cases hs
    | some p =>
      rw [hr] at hs
      simp only [Option.map_some, Option.some.injEq, Prod.mk.injEq] at hs
      rw [← hs.2]
      rfl
  rw [this]
  decide

/-! Examples. -/

/-- A history on Linux with two blocks and a store. -/
example : ∃ s, BootHist (linux 0x1000 0x40000000 fun _ => 0) s [⟨0x40000040, 12, 1⟩, ⟨0x40000000, 40, 20⟩] := by
  have hp : ∀ u, view { symbol := 0x1000, usedLen := u, mem := (linux 0x1000 0x40000000 fun _ => 0).mem } =
      { memory := 0x40000000, usedLen := u, mem := (linux 0x1000 0x40000000 fun _ => 0).mem } := by
    intro u
    simp only [view]
    rw [show loadPtr (linux 0x1000 0x40000000 fun _ => 0).mem 0x1000 = 0x40000000 from loadPtr_storePtr _ _ _ (by decide)]
  have h1 : alloc (linux 0x1000 0x40000000 fun _ => 0) 2 20 = some (0x40000000, { linux 0x1000 0x40000000 fun _ => 0 with usedLen := 40 }) := by
    unfold alloc
    rw [show view (linux 0x1000 0x40000000 fun _ => 0) = _ from hp 0]
    rfl
  have h2 : alloc { linux 0x1000 0x40000000 fun _ => 0 with usedLen := 40 } 12 1 =
      some (0x40000040, { linux 0x1000 0x40000000 fun _ => 0 with usedLen := 76 }) := by
    unfold alloc
    rw [show view { linux 0x1000 0x40000000 fun _ => 0 with usedLen := 40 } = _ from hp 40]
    rfl
  exact ⟨_, .alloc (.alloc .init (by decide) h1) (by decide) h2⟩

/-- The first request of TinyNF's agents, 256 buffers of 2 KB, on bare metal. -/
example : ∃ s, BootHist (metal 0x20000000 fun _ => 0) s [⟨0, 256 * 2048, 2048⟩] := by
  obtain ⟨s, hs⟩ := C58_metal_null 0x20000000 (fun _ => 0) (fun _ _ _ => rfl) 256 2048 (by decide) (by decide)
  exact ⟨s, .alloc .init (by decide) hs⟩

end Verif.Props
