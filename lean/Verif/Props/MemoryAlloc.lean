/- Property C05: the allocator. -/
import Verif.Env.MemoryAlloc

namespace Verif.Props.C05
open Verif Verif.MemoryAlloc

/-- A returned block: its address, its length, and the object size it was asked for. -/
structure Block where
  addr : Nat
  len : Nat
  size : Nat

def Block.has (b : Block) (a : Nat) : Prop := b.addr ≤ a ∧ a < b.addr + b.len

/-- The histories of an allocator whose 256 MB arena is at `base`, not NULL, does
not reach the end of the address space and starts zeroed (the boot assumptions of
memory_alloc.c:11-29): requests that were granted, and stores inside granted blocks. -/
inductive Hist (base : Nat) : State → List Block → Prop
  | init (mem : Mem) (h0 : base ≠ 0) (h1 : base + 268435456 ≤ 2 ^ 64 - 1)
      (hz : ∀ a, base ≤ a → a < base + 268435456 → mem a = 0) :
      Hist base { memory := base, usedLen := 0, mem := mem } []
  | alloc {s s' bs count size addr} : Hist base s bs → count * size ≤ 2 ^ 64 - 1 →
      MemoryAlloc.alloc s count size = some (addr, s') →
      Hist base s' (⟨addr, count * size, size⟩ :: bs)
  | write {s bs} (b : Block) (a : Nat) (v : UInt8) : Hist base s bs → b ∈ bs → b.has a →
      Hist base (MemoryAlloc.write s a v) bs

/-- The alignment promised by memory.h: `size` rounded up past a cache line. -/
def alignment (size : Nat) : Nat := size + 64 - size % 64

/-- First address at or after `a` that is a multiple of `d`. -/
def alignUp (a d : Nat) : Nat := (a + d - 1) / d * d

theorem pad_eq (a d : Nat) (hd : 0 < d) :
    a + (if a % d = 0 then 0 else d - a % d) = alignUp a d := by
  unfold alignUp
  have h := Nat.div_add_mod a d
  have hm := Nat.mod_lt a hd
  generalize hq : a / d = q at h
  generalize hr : a % d = r at h hm
  subst h
  split
  · rename_i h0
    subst h0
    simp only [Nat.add_zero]; rw [Nat.add_sub_assoc hd, Nat.mul_add_div hd,
      Nat.div_eq_of_lt (by omega : d - 1 < d), Nat.add_zero, Nat.mul_comm]
  · rename_i h0
    have : d * q + r + d - 1 = d * (q + 1) + (r - 1) := by rw [Nat.mul_add]; omega
    rw [this, Nat.mul_add_div hd, Nat.div_eq_of_lt (by omega : r - 1 < d), Nat.add_zero,
      Nat.mul_comm (q + 1), Nat.mul_add]
    omega

theorem alignment_pos (size : Nat) : 0 < alignment size := by unfold alignment; omega

/-- What a granted or refused request looks like. -/
theorem alloc_cases (s : State) (count size : Nat) (hu : s.usedLen ≤ 268435456)
    (hc : count * size ≤ 2 ^ 64 - 1) :
    let addr := alignUp (s.memory + s.usedLen) (alignment size)
    MemoryAlloc.alloc s count size =
      if size ≤ 2 ^ 64 - 1 - 64 ∧ addr + count * size ≤ s.memory + 268435456
      then some (addr, { s with usedLen := addr + count * size - s.memory }) else none := by
  intro addr
  have hpad := pad_eq (s.memory + s.usedLen) (alignment size) (alignment_pos size)
  have hfull : size * count % 2 ^ 64 = count * size := by
    rw [Nat.mul_comm]; exact Nat.mod_eq_of_lt (by omega)
  unfold MemoryAlloc.alloc
  simp only [hfull, SIZE_MAX, CACHE_LINE_SIZE, OS_MEMORY_SIZE]
  change (if _ then none else
    if (if (s.memory + s.usedLen) % alignment size = 0 then 0
        else alignment size - (s.memory + s.usedLen) % alignment size) > _ then none else
    if _ > 256 * 1024 * 1024 - (s.usedLen + (if (s.memory + s.usedLen) % alignment size = 0 then 0
        else alignment size - (s.memory + s.usedLen) % alignment size)) then none else
    some (s.memory + s.usedLen + (if (s.memory + s.usedLen) % alignment size = 0 then 0
        else alignment size - (s.memory + s.usedLen) % alignment size),
      { s with usedLen := s.usedLen + (if (s.memory + s.usedLen) % alignment size = 0 then 0
        else alignment size - (s.memory + s.usedLen) % alignment size) + count * size })) = _
  generalize (if (s.memory + s.usedLen) % alignment size = 0 then 0
        else alignment size - (s.memory + s.usedLen) % alignment size) = pad at hpad
  have hadd : addr = s.memory + s.usedLen + pad := hpad.symm
  clear_value addr
  subst hadd
  split
  · rw [if_neg]; omega
  split
  · rw [if_neg]; omega
  split
  · rw [if_neg]; omega
  · rw [if_pos (by omega), show s.memory + s.usedLen + pad + count * size - s.memory =
      s.usedLen + pad + count * size by omega]

theorem le_alignUp (a d : Nat) (hd : 0 < d) : a ≤ alignUp a d := by
  rw [← pad_eq a d hd]; omega

theorem dvd_alignUp (a d : Nat) : alignUp a d % d = 0 := by
  unfold alignUp; exact Nat.mul_mod_left _ _

/-- The state invariant carried through a history. -/
theorem hist_inv {base s bs} (h : Hist base s bs) :
    s.memory = base ∧ base ≠ 0 ∧ base + 268435456 ≤ 2 ^ 64 - 1 ∧ s.usedLen ≤ 268435456 ∧
    (∀ a, base + s.usedLen ≤ a → a < base + 268435456 → s.mem a = 0) ∧
    (∀ b ∈ bs, base ≤ b.addr ∧ b.addr + b.len ≤ base + s.usedLen ∧ b.addr % alignment b.size = 0) ∧
    bs.Pairwise (fun b b' => ∀ a, ¬ (b.has a ∧ b'.has a)) := by
  induction h with
  | init mem h0 h1 hz => exact ⟨rfl, h0, h1, by simp, by simpa using hz, by simp, .nil⟩
  | @alloc s s' bs count size addr _ hc ha ih =>
    obtain ⟨h1, h2, h3, h4, h5, h6, h7⟩ := ih
    have hcs := alloc_cases s count size h4 hc
    simp only at hcs
    rw [ha] at hcs
    split at hcs
    · rename_i hfit
      cases hcs
      have hle := le_alignUp (s.memory + s.usedLen) (alignment size) (alignment_pos size)
      have hdv := dvd_alignUp (s.memory + s.usedLen) (alignment size)
      generalize alignUp (s.memory + s.usedLen) (alignment size) = addr at *
      refine ⟨h1, h2, h3, ?_, ?_, ?_, ?_⟩
      · simp only; omega
      · intro a ha hb; exact h5 a (by simp only at ha; omega) hb
      · intro b hb
        simp only [List.mem_cons] at hb
        rcases hb with rfl | hb
        · exact ⟨by simp only; omega, by simp only; omega, hdv⟩
        · obtain ⟨q1, q2, q3⟩ := h6 b hb
          exact ⟨q1, by simp only; omega, q3⟩
      · refine List.Pairwise.cons ?_ h7
        intro b hb a
        obtain ⟨q1, q2, q3⟩ := h6 b hb
        simp only [Block.has]
        omega
    · cases hcs
  | @write s bs b a v _ hb hin ih =>
    obtain ⟨h1, h2, h3, h4, h5, h6, h7⟩ := ih
    refine ⟨h1, h2, h3, h4, ?_, h6, h7⟩
    intro x hx hx'
    obtain ⟨q1, q2, _⟩ := h6 b hb
    have : x ≠ a := by
      rintro rfl
      have hx : base + s.usedLen ≤ x := hx
      simp only [Block.has] at hin
      omega
    simp only [MemoryAlloc.write, Memory.store, if_neg this]
    exact h5 x hx hx'

end Verif.Props.C05

namespace Verif.Props
open Verif Verif.MemoryAlloc Verif.Props.C05

/-- C05: in every history, the granted blocks lie in the arena (hence not at
NULL and not past the end of the address space), are aligned, and are pairwise
disjoint; and a further request returns a zeroed block exactly when the next
aligned range fits in what is left of the arena, and never returns otherwise. -/
theorem C05_allocator_blocks (base : Nat) (s : State) (bs : List Block) (h : Hist base s bs) :
    (∀ b ∈ bs, base ≤ b.addr ∧ b.addr ≠ 0 ∧ b.addr + b.len ≤ base + 268435456 ∧
      b.addr + b.len ≤ 2 ^ 64 - 1 ∧ b.addr % alignment b.size = 0) ∧
    bs.Pairwise (fun b b' => ∀ a, ¬ (b.has a ∧ b'.has a)) ∧
    (∀ count size addr s', count * size ≤ 2 ^ 64 - 1 → alloc s count size = some (addr, s') →
      (∀ i < count * size, s'.mem (addr + i) = 0) ∧
      ∀ b ∈ bs, ∀ a, b.has a → ¬ (addr ≤ a ∧ a < addr + count * size)) ∧
    (∀ count size, count * size ≤ 2 ^ 64 - 1 →
      (alloc s count size = none ↔ size > 2 ^ 64 - 1 - 64 ∨
        alignUp (s.memory + s.usedLen) (alignment size) + count * size > base + 268435456)) := by
  obtain ⟨h1, h2, h3, h4, h5, h6, h7⟩ := hist_inv h
  refine ⟨?_, h7, ?_, ?_⟩
  · intro b hb
    obtain ⟨q1, q2, q3⟩ := h6 b hb
    exact ⟨q1, by omega, by omega, by omega, q3⟩
  · intro count size addr s' hc ha
    have hcs := alloc_cases s count size h4 hc
    simp only at hcs
    have hn := hist_inv (Hist.alloc h hc ha)
    rw [ha] at hcs
    split at hcs
    · cases hcs
      have hle := le_alignUp (s.memory + s.usedLen) (alignment size) (alignment_pos size)
      constructor
      · intro i hi
        exact h5 _ (by omega) (by omega)
      · intro b hb a hba
        have := (List.pairwise_cons.1 hn.2.2.2.2.2.2).1 b hb a
        simp only [Block.has] at this hba
        omega
    · cases hcs
  · intro count size hc
    rw [alloc_cases s count size h4 hc]
    simp only [h1]
    split
    · rename_i hh; simp only [reduceCtorEq, false_iff]; omega
    · rename_i hh; simp only [true_iff]; omega

/-- A history with two granted requests of different sizes and a store between them. -/
example : ∃ s, Hist 4096 s [⟨4160, 12, 1⟩, ⟨4096, 40, 20⟩] := by
  have h0 : Hist 4096 ⟨4096, 0, fun _ => 0⟩ [] := .init _ (by decide) (by decide) (by simp)
  have h1 : Hist 4096 ⟨4096, 40, fun _ => 0⟩ [⟨4096, 40, 20⟩] :=
    Hist.alloc (count := 2) (size := 20) h0 (by decide) rfl
  have h2 := Hist.write _ 4110 7 h1 (List.mem_singleton.2 rfl) (by simp [Block.has])
  exact ⟨_, Hist.alloc (count := 12) (size := 1) h2 (by decide) rfl⟩

end Verif.Props
