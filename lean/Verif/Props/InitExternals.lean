/- Property C68: what stands for the operating system during initialization admits what the operating system does. -/
import Verif.Tool.InitExternals
import Verif.Props.MemoryAlloc
import Verif.Props.Memory
import Verif.Props.Pci
import Verif.Env.MemoryProofs
import Mathlib.Data.Int.GCD
import Mathlib.Data.Nat.Prime.Basic
import Mathlib.Tactic.NormNum
import Mathlib.Tactic.Ring

set_option autoImplicit false

namespace Verif.Props
open Verif.Tool Verif.Tool.InitExternals

namespace InitExt

/-- The bit `j` of element `k` of an array of elements of `size` bytes at `p`, bytes and bits lowest first. -/
def bitOf (mem : Mem) (p size k j : Nat) : Bool := (mem (p + k * size + j / 8)).toNat.testBit (j % 8)

/-- The 8 bytes at `a` as a number, lowest first. -/
def word (mem : Mem) (a : Nat) : BitVec 64 :=
  BitVec.ofNat 64 ((List.range 8).foldr (fun i acc => (mem (a + i)).toNat + 256 * acc) 0)

theorem multiple_iff (R r : Nat) (hR : R < 2 ^ 64) (h0 : 0 < R) (hr : r < 2 ^ 64) :
    (∃ m, m < 2 ^ 64 ∧ r = m * R % 2 ^ 64) ↔ Nat.gcd R (2 ^ 64) ∣ r := by
  constructor
  · rintro ⟨m, _, rfl⟩
    exact (Nat.dvd_mod_iff (Nat.gcd_dvd_right _ _)).2 (Dvd.dvd.mul_left (Nat.gcd_dvd_left _ _) _)
  · rintro ⟨q, rfl⟩
    have hk : Nat.gcd R (2 ^ 64) < 2 ^ 64 := lt_of_le_of_lt (Nat.gcd_le_left _ h0) hR
    obtain ⟨m, _, hm⟩ := Nat.exists_mul_mod_eq_gcd hk
    refine ⟨q * m % 2 ^ 64, Nat.mod_lt _ (by norm_num), ?_⟩
    rw [Nat.mod_mul_mod, show q * m * R = q * (R * m) by ring, Nat.mul_mod, hm, Nat.mod_mul_mod, Nat.mul_comm q]
    exact (Nat.mod_eq_of_lt hr).symm

theorem sub_end (n : Nat) (h : n < 2 ^ 64 - 1) : sub64 (sub64 (2 ^ 64 - 1) n) 1 = 2 ^ 64 - 2 - n := by
  unfold sub64; omega

theorem sub_end' (n : Nat) (h : n = 2 ^ 64 - 1) : sub64 (sub64 (2 ^ 64 - 1) n) 1 = 2 ^ 64 - 1 := by
  unfold sub64; omega

theorem alloc_some {Env : Type} {con : Env → Prop} {count : Env → Nat} {size : Nat} {R : Env → Nat → Prop} (h : memoryAlloc con count size = some R) :
    (∀ ρ, con ρ → count ρ = 1 ∨ count ρ * size ≤ 2 ^ 64 - 1) ∧ size ≤ 4096 ∧ R = fun ρ result =>
      result < 2 ^ 64 ∧ result ≠ 0 ∧ result ≤ sub64 (sub64 (2 ^ 64 - 1) (count ρ * size)) 1 ∧
      ∃ multiplier, multiplier < 2 ^ 64 ∧ result = multiplier * (size + 64 - size % 64) % 2 ^ 64 := by
  unfold memoryAlloc at h
  split at h
  · rename_i hc
    split at h
    · cases h
    · exact ⟨hc, by omega, (Option.some.inj h).symm⟩
  · cases h

/-- What an assignment may give as the address, in plain words: not null, within the address space but for the last byte, and a
multiple of the power of two in the alignment. -/
theorem admitted_iff {Env : Type} {con : Env → Prop} {count : Env → Nat} {size : Nat} {R : Env → Nat → Prop} (h : memoryAlloc con count size = some R) (ρ : Env)
    (r : Nat) (hlt : count ρ * size < 2 ^ 64 - 1) :
    R ρ r ↔ r ≠ 0 ∧ r + count ρ * size ≤ 2 ^ 64 - 2 ∧ Nat.gcd (size + 64 - size % 64) (2 ^ 64) ∣ r := by
  obtain ⟨_, hs, rfl⟩ := alloc_some h
  simp only [sub_end _ hlt]
  constructor
  · rintro ⟨h1, h2, h3, h4⟩
    exact ⟨h2, by omega, (multiple_iff _ _ (by omega) (by omega) h1).1 h4⟩
  · rintro ⟨h1, h2, h3⟩
    have hr : r < 2 ^ 64 := by omega
    exact ⟨hr, h1, by omega, (multiple_iff _ _ (by omega) (by omega) hr).2 h3⟩

end InitExt

open InitExt

/-- The tool calls `os_memory_alloc` only as its contract requires: whenever it does not raise, the number of bytes fits in a `size_t`
in every assignment. -/
theorem C68_alloc_required {Env : Type} (con : Env → Prop) (count : Env → Nat) (size : Nat) (R : Env → Nat → Prop) (h : memoryAlloc con count size = some R)
    (ρ : Env) (hρ : con ρ) : count ρ * size ≤ 2 ^ 64 - 1 := by
  obtain ⟨h1, h2, _⟩ := alloc_some h
  rcases h1 ρ hρ with h | h
  · rw [h]; omega
  · exact h

/-- The tool goes on exactly if the number of bytes fits in a `size_t` whatever the assignment, or there is one element, and the
elements have no more than 4096 bytes. -/
theorem C68_alloc_accepted {Env : Type} (con : Env → Prop) (count : Env → Nat) (size : Nat) :
    (∃ R, memoryAlloc con count size = some R) ↔ (∀ ρ, con ρ → count ρ = 1 ∨ count ρ * size < 2 ^ 64) ∧ size ≤ 4096 := by
  unfold memoryAlloc
  constructor
  · rintro ⟨R, h⟩
    split at h
    · rename_i h1
      split at h
      · cases h
      · exact ⟨fun ρ hρ => (h1 ρ hρ).imp id (by omega), by omega⟩
    · cases h
  · rintro ⟨h1, h2⟩
    rw [if_pos (fun ρ hρ => (h1 ρ hρ).imp id (by omega)), if_neg (by omega)]
    exact ⟨_, rfl⟩

/-- Every block that the allocator of memory_alloc.c grants is one the tool considers, in any history of the allocator: its address
is admitted (unless the block ends at the last address), each element holds the bits that the tool says it holds, and all of it belongs
to the program. -/
theorem C68_alloc_partial {Env : Type} (con : Env → Prop) (count : Env → Nat) (size : Nat) (R : Env → Nat → Prop) (h : memoryAlloc con count size = some R)
    (ρ : Env) (hρ : con ρ) {base : Nat} {s s' : MemoryAlloc.State} {bs : List C05.Block} {p : Nat} (hist : C05.Hist base s bs)
    (ha : MemoryAlloc.alloc s (count ρ) size = some (p, s')) (hend : p + count ρ * size < 2 ^ 64 - 1) :
    R ρ p ∧ ∀ c f, ∃ obj, memoryContents (count ρ) size c f = some obj ∧ obj.count = count ρ ∧
      (∃ own, obj.fractions = some own ∧ ∀ k < count ρ, own k = (100, true)) ∧
      ∀ k < count ρ, (obj.contents k).2 = true ∧ (obj.contents k).1 = (List.range (size * 8)).map (bitOf s'.mem p size k) := by
  have hreq := C68_alloc_required con count size R h ρ hρ
  obtain ⟨h1, h2, h3, h4, h5, _, _⟩ := C05.hist_inv hist
  have hcs := C05.alloc_cases s (count ρ) size h4 hreq
  simp only at hcs
  rw [ha] at hcs
  split at hcs
  case isFalse => cases hcs
  rename_i hfit
  have hle := C05.le_alignUp (s.memory + s.usedLen) (C05.alignment size) (C05.alignment_pos size)
  have hdv := C05.dvd_alignUp (s.memory + s.usedLen) (C05.alignment size)
  generalize C05.alignUp (s.memory + s.usedLen) (C05.alignment size) = a at *
  have hpa : p = a := by simpa using congrArg (fun x => x.map Prod.fst) hcs
  have hsa : s' = { s with usedLen := a + count ρ * size - s.memory } := by simpa using congrArg (fun x => x.map Prod.snd) hcs
  subst hpa
  refine ⟨?_, ?_⟩
  · rw [admitted_iff h ρ p (by omega)]
    refine ⟨by omega, by omega, ?_⟩
    exact (Nat.gcd_dvd_left _ _).trans (Nat.dvd_of_mod_eq_zero hdv)
  · intro c f
    obtain ⟨_, hs, _⟩ := alloc_some h
    refine ⟨_, by simp [memoryContents, Heap.allocate, Nat.not_lt.2 hs]; rfl, rfl, ⟨_, rfl, fun k hk => by simp [hk]⟩, ?_⟩
    intro k hk
    refine ⟨by simpa using hk, ?_⟩
    refine List.ext_getElem (by simp) ?_
    intro j hj hj'
    simp only [List.getElem_replicate, List.getElem_map, List.getElem_range]
    simp only [List.length_replicate] at hj
    have hb : p + k * size + j / 8 < p + count ρ * size := by
      have : (k + 1) * size ≤ count ρ * size := Nat.mul_le_mul_right _ hk
      rw [Nat.succ_mul] at this
      omega
    rw [hsa]
    simp only [bitOf]
    rw [h5 _ (by omega) (by omega)]
    simp

example : ∃ (R : Unit → Nat → Prop) (s s' : MemoryAlloc.State) (p : Nat), memoryAlloc (fun _ => True) (fun _ => 3) 100 = some R ∧ C05.Hist 4096 s [] ∧
    MemoryAlloc.alloc s 3 100 = some (p, s') ∧ R () p := by
  have hm : ∃ R : Unit → Nat → Prop, memoryAlloc (fun _ => True) (fun _ => 3) 100 = some R := by
    unfold memoryAlloc
    rw [if_pos (by intro _ _; right; norm_num), if_neg (by norm_num)]
    exact ⟨_, rfl⟩
  obtain ⟨R, hR⟩ := hm
  have hist : C05.Hist 4096 ⟨4096, 0, fun _ => 0⟩ [] := .init _ (by norm_num) (by norm_num) (by intros; rfl)
  have ha : MemoryAlloc.alloc ⟨4096, 0, fun _ => 0⟩ 3 100 = some (4096, ⟨4096, 300, fun _ => 0⟩) := rfl
  exact ⟨R, _, _, _, hR, hist, ha, (C68_alloc_partial _ _ _ R hR () trivial hist ha (by norm_num)).1⟩

/-- The last address: the allocator may give a block that ends there, as its contract allows (memory.h:30 `<= UINTPTR_MAX`), but the
tool leaves it out, since heap.py:48 subtracts one more. -/
theorem C68_alloc_end_wrong : ∃ (base : Nat) (s s' : MemoryAlloc.State) (p : Nat) (R : Unit → Nat → Prop),
    C05.Hist base s [] ∧ memoryAlloc (fun _ => True) (fun _ => 268435455) 1 = some R ∧ MemoryAlloc.alloc s 268435455 1 = some (p, s') ∧
      p + 268435455 ≤ 2 ^ 64 - 1 ∧ ¬ R () p := by
  have hm : ∃ R : Unit → Nat → Prop, memoryAlloc (fun _ => True) (fun _ => 268435455) 1 = some R := by
    unfold memoryAlloc
    rw [if_pos (by intro _ _; right; norm_num), if_neg (by norm_num)]
    exact ⟨_, rfl⟩
  obtain ⟨R, hR⟩ := hm
  refine ⟨2 ^ 64 - 1 - 268435456, ⟨2 ^ 64 - 1 - 268435456, 0, fun _ => 0⟩, ⟨2 ^ 64 - 1 - 268435456, 268435456, fun _ => 0⟩, 2 ^ 64 - 268435456, R,
    .init _ (by norm_num) (by norm_num) (by intros; rfl), hR, by rfl, by norm_num, ?_⟩
  rw [admitted_iff hR () _ (by norm_num)]
  rintro ⟨_, h, _⟩
  norm_num at h

/-- The alignment is not all known to the tool, since its multiplication wraps: for objects of 128 bytes the contract says that the
address is a multiple of 192, and the tool considers 64. It considers too much, not too little. -/
theorem C68_alloc_weak : ∃ R : Unit → Nat → Prop, memoryAlloc (fun _ => True) (fun _ => 1) 128 = some R ∧ R () 64 ∧ 64 % (128 + 64 - 128 % 64) ≠ 0 := by
  have hm : ∃ R : Unit → Nat → Prop, memoryAlloc (fun _ => True) (fun _ => 1) 128 = some R := by
    unfold memoryAlloc
    rw [if_pos (by intro _ _; left; rfl), if_neg (by norm_num)]
    exact ⟨_, rfl⟩
  obtain ⟨R, hR⟩ := hm
  refine ⟨R, hR, ?_, by norm_num⟩
  rw [admitted_iff hR () _ (by norm_num)]
  refine ⟨by norm_num, by norm_num, by decide⟩

/-- The allocator of DPDK: what `rte_calloc` returns with the alignment of dpdk/memory.c, when it does not fail, is admitted as
well, except for one object of 64 bytes. (What the memory holds is up to `rte_calloc`.) -/
theorem C68_dpdk_partial {Env : Type} (con : Env → Prop) (count : Env → Nat) (size : Nat) (R : Env → Nat → Prop) (h : memoryAlloc con count size = some R)
    (ρ : Env) (p : Nat) (hone : 1 ≤ count ρ) (hnot : ¬ (count ρ = 1 ∧ size = 64)) (hnull : p ≠ 0) (hal : p % dpdkAlign (count ρ) size = 0)
    (hend : p + count ρ * size < 2 ^ 64 - 1) : R ρ p := by
  rw [admitted_iff h ρ p (by omega)]
  refine ⟨hnull, by omega, ?_⟩
  refine Dvd.dvd.trans ?_ (Nat.dvd_of_mod_eq_zero hal)
  obtain ⟨a, ha, hg⟩ := (Nat.dvd_prime_pow Nat.prime_two).1 (Nat.gcd_dvd_right (size + 64 - size % 64) (2 ^ 64))
  have hle : 2 ^ a ≤ size + 64 - size % 64 := hg ▸ Nat.gcd_le_left _ (by omega)
  rw [hg]
  have hfull : count ρ * size % 2 ^ 64 = count ρ * size := Nat.mod_eq_of_lt (by omega)
  have hc := Nat.le_pow_clog (b := 2) (by norm_num) (count ρ * size)
  have hsz : size ≤ count ρ * size := Nat.le_mul_of_pos_left _ hone
  simp only [dpdkAlign, hfull]
  generalize Nat.clog 2 (count ρ * size) = j at hc
  by_cases ha6 : a ≤ 6
  · split
    · exact pow_dvd_pow 2 ha6
    · rename_i hj
      refine pow_dvd_pow 2 (ha6.trans ?_)
      by_contra hlt
      exact hj (Nat.pow_lt_pow_right (by norm_num) (by omega : j < 6))
  · obtain ⟨b, rfl⟩ : ∃ b, a = b + 7 := ⟨a - 7, by omega⟩
    have hpos := Nat.two_pow_pos b
    rw [pow_add] at hle
    have hbig : 2 ^ (b + 6) < count ρ * size := by
      rw [pow_add]
      by_cases h2 : size ≤ 64
      · have : size = 64 := by omega
        subst this
        have : 2 ≤ count ρ := by omega
        omega
      · omega
    have hj : b + 6 < j := (Nat.pow_lt_pow_iff_right (by norm_num : 1 < 2)).1 (lt_of_lt_of_le hbig hc)
    rw [if_neg]
    · exact pow_dvd_pow 2 hj
    · have : 2 ^ 7 ≤ 2 ^ j := Nat.pow_le_pow_right (by norm_num) (by omega)
      omega

example : ∃ R : Unit → Nat → Prop, memoryAlloc (fun _ => True) (fun _ => 3) 100 = some R ∧ R () 512 := by
  have hm : ∃ R : Unit → Nat → Prop, memoryAlloc (fun _ => True) (fun _ => 3) 100 = some R := by
    unfold memoryAlloc
    rw [if_pos (by intro _ _; right; norm_num), if_neg (by norm_num)]
    exact ⟨_, rfl⟩
  obtain ⟨R, hR⟩ := hm
  refine ⟨R, hR, C68_dpdk_partial _ _ _ R hR () 512 (by norm_num) (by norm_num) (by norm_num) ?_ (by norm_num)⟩
  have : Nat.clog 2 300 = 9 := by
    refine le_antisymm ((Nat.clog_le_iff_le_pow (by norm_num)).2 (by norm_num)) ((Nat.lt_clog_iff_pow_lt (by norm_num)).2 (by norm_num))
  norm_num [dpdkAlign, this]

/-- One object of 64 bytes: DPDK is asked for an alignment of 64, so it may return 64, whereas the contract says, and the tool takes
for granted, that the address is a multiple of 128. -/
theorem C68_dpdk_wrong : dpdkAlign 1 64 = 64 ∧ 64 % (64 + 64 - 64 % 64) ≠ 0 ∧
    ∃ R : Unit → Nat → Prop, memoryAlloc (fun _ => True) (fun _ => 1) 64 = some R ∧ ∀ p, p % 128 ≠ 0 → ¬ R () p := by
  have hm : ∃ R : Unit → Nat → Prop, memoryAlloc (fun _ => True) (fun _ => 1) 64 = some R := by
    unfold memoryAlloc
    rw [if_pos (by intro _ _; left; rfl), if_neg (by norm_num)]
    exact ⟨_, rfl⟩
  obtain ⟨R, hR⟩ := hm
  have hc : Nat.clog 2 64 = 6 := Nat.clog_pow 2 6 (by norm_num)
  refine ⟨by norm_num [dpdkAlign, hc], by norm_num, R, hR, ?_⟩
  intro p hp
  rw [admitted_iff hR () _ (by norm_num)]
  rintro ⟨_, _, h⟩
  have h128 : Nat.gcd (64 + 64 - 64 % 64) (2 ^ 64) = 128 := by decide
  rw [h128] at h
  omega

/-! Configuration. -/

namespace InitExt

theorem paths_admit (items : List (List UInt8 × Nat)) : ∀ (names : List (List UInt8)) (known : List (List UInt8 × Nat)) (next : Nat) (val : Nat → Nat),
    (∀ name symbol, known.lookup name = some symbol → symbol < next ∧ lookup items name = some (val symbol)) →
    (∀ s, val s < 2 ^ 64) → (∀ e ∈ items, e.2 < 2 ^ 64) →
    ∃ path ∈ tryGetPaths known next names, ∃ val' : Nat → Nat, (∀ s, val' s < 2 ^ 64) ∧ (∀ s < next, val' s = val s) ∧
      path.map (Option.map val') = names.map (lookup items)
  | [], known, next, val, hk, hv, _ => ⟨[], by simp [tryGetPaths], val, hv, fun _ _ => rfl, rfl⟩
  | name :: names, known, next, val, hk, hv, hi => by
    cases hl : lookup items name with
    | none =>
      obtain ⟨path, hp, val', h1, h2, h3⟩ := paths_admit items names known next val hk hv hi
      exact ⟨none :: path, by simp [tryGetPaths, hp], val', h1, h2, by simp [h3, hl]⟩
    | some v =>
      have hv64 : v < 2 ^ 64 := by
        simp only [lookup, Option.map_eq_some_iff] at hl
        obtain ⟨e, he, rfl⟩ := hl
        exact hi e (List.mem_of_find?_eq_some he)
      cases hkn : known.lookup name with
      | some symbol =>
        obtain ⟨path, hp, val', h1, h2, h3⟩ := paths_admit items names known next val hk hv hi
        obtain ⟨hlt, hval⟩ := hk name symbol hkn
        refine ⟨some symbol :: path, by simp [tryGetPaths, hkn, hp], val', h1, h2, ?_⟩
        rw [List.map_cons, List.map_cons, h3, Option.map_some, h2 symbol hlt, hval]
      | none =>
        obtain ⟨path, hp, val', h1, h2, h3⟩ := paths_admit items names ((name, next) :: known) (next + 1) (fun s => if s = next then v else val s)
          (by
            intro n symbol h
            rw [List.lookup_cons] at h
            split at h
            · rename_i he
              cases h
              have : n = name := by simpa using he
              subst this
              exact ⟨by omega, by simp [hl]⟩
            · obtain ⟨q1, q2⟩ := hk n symbol h
              exact ⟨by omega, by rw [if_neg (by omega), q2]⟩)
          (by intro s; split <;> [exact hv64; exact hv s]) hi
        refine ⟨some next :: path, by simp [tryGetPaths, hkn, hp], val', h1, ?_, ?_⟩
        · intro s hs
          rw [h2 s (by omega), if_neg (by omega)]
        · rw [List.map_cons, List.map_cons, h3, Option.map_some, h2 next (by omega), if_pos rfl, hl]

/-- The symbols of one path: those already known stay with their name, and new ones are new. -/
theorem paths_symbols : ∀ (names : List (List UInt8)) (known : List (List UInt8 × Nat)) (next : Nat) (path : List (Option Nat)),
    path ∈ tryGetPaths known next names → (∀ n s, known.lookup n = some s → s < next) →
    (∀ n m s, known.lookup n = some s → known.lookup m = some s → n = m) →
    ∃ f : List UInt8 → Option Nat, path.length = names.length ∧ (∀ n s, known.lookup n = some s → f n = some s) ∧
      (∀ n m s, f n = some s → f m = some s → n = m) ∧
      ∀ (i s : Nat), path[i]? = some (some s) → ∃ n, names[i]? = some n ∧ f n = some s
  | [], known, next, path, hp, hk, hj => by
    simp only [tryGetPaths, List.mem_singleton] at hp
    subst hp
    exact ⟨fun n => known.lookup n, rfl, fun _ _ h => h, hj, by simp⟩
  | name :: names, known, next, path, hp, hk, hj => by
    simp only [tryGetPaths, List.mem_append] at hp
    rcases hp with hp | hp
    · cases hkn : known.lookup name with
      | some symbol =>
        simp only [hkn, List.mem_map] at hp
        obtain ⟨path', hp', rfl⟩ := hp
        obtain ⟨f, h1, h2, h3, h4⟩ := paths_symbols names known next path' hp' hk hj
        refine ⟨f, by simp [h1], h2, h3, ?_⟩
        intro i s hi
        cases i with
        | zero =>
          simp only [List.getElem?_cons_zero, Option.some.injEq] at hi
          subst hi
          exact ⟨name, rfl, h2 name _ hkn⟩
        | succ i => exact h4 i s (by simpa using hi)
      | none =>
        simp only [hkn, List.mem_map] at hp
        obtain ⟨path', hp', rfl⟩ := hp
        have hlk : ∀ n s, List.lookup n ((name, next) :: known) = some s → (n = name ∧ s = next) ∨ (known.lookup n = some s ∧ n ≠ name) := by
          intro n s h
          rw [List.lookup_cons] at h
          split at h
          · rename_i he
            cases h
            exact Or.inl ⟨by simpa using he, rfl⟩
          · rename_i he
            exact Or.inr ⟨h, by rintro rfl; simp at he⟩
        obtain ⟨f, h1, h2, h3, h4⟩ := paths_symbols names ((name, next) :: known) (next + 1) path' hp'
          (by
            intro n s h
            rcases hlk n s h with ⟨_, rfl⟩ | ⟨h, _⟩
            · omega
            · have := hk n s h; omega)
          (by
            intro n m s h h'
            rcases hlk n s h with ⟨rfl, rfl⟩ | ⟨k1, _⟩ <;> rcases hlk m _ h' with ⟨rfl, h0⟩ | ⟨k2, _⟩
            · rfl
            · have := hk _ _ k2; omega
            · have := hk _ _ k1; omega
            · exact hj n m _ k1 k2)
        refine ⟨f, by simp [h1], ?_, h3, ?_⟩
        · intro n s h
          refine h2 n s ?_
          rw [List.lookup_cons]
          split
          · rename_i he
            have : n = name := by simpa using he
            subst this
            rw [hkn] at h; cases h
          · exact h
        · intro i s hi
          cases i with
          | zero =>
            simp only [List.getElem?_cons_zero, Option.some.injEq] at hi
            subst hi
            exact ⟨name, rfl, h2 name _ (by simp)⟩
          | succ i => exact h4 i s (by simpa using hi)
    · simp only [List.mem_map] at hp
      obtain ⟨path', hp', rfl⟩ := hp
      obtain ⟨f, h1, h2, h3, h4⟩ := paths_symbols names known next path' hp' hk hj
      refine ⟨f, by simp [h1], h2, h3, ?_⟩
      intro i s hi
      cases i with
      | zero => simp at hi
      | succ i => exact h4 i s (by simpa using hi)

end InitExt

/-- Whatever the configuration and the names asked for, in any number and order, the tool has a path, with values for its symbols,
on which every call of `os_config_try_get` returns what config.c returns. -/
theorem C68_config (items : List (List UInt8 × Nat)) (names : List (List UInt8)) (hi : ∀ e ∈ items, 0 ∉ e.1) (hn : ∀ n ∈ names, 0 ∉ n)
    (hv : ∀ e ∈ items, e.2 < 2 ^ 64) :
    ∃ path ∈ tryGetPaths [] 0 names, ∃ val : Nat → Nat, (∀ s, val s < 2 ^ 64) ∧
      names.map (Config.tryGet items) = path.map fun o => some (o.map val) := by
  obtain ⟨path, hp, val, h1, _, h3⟩ := paths_admit items names [] 0 (fun _ => 0) (by simp) (by simp) hv
  refine ⟨path, hp, val, h1, ?_⟩
  have : names.map (Config.tryGet items) = (names.map (lookup items)).map some := by
    rw [List.map_map]
    refine List.map_congr_left ?_
    intro n hnn
    exact (C06_config_helpers items n hi (hn n hnn) hv).1
  rw [this, ← h3, List.map_map]
  rfl

/-- On one path, two calls that find a value get the same symbol exactly if they asked for the same name. -/
theorem C68_config_same (names : List (List UInt8)) (path : List (Option Nat)) (h : path ∈ tryGetPaths [] 0 names) (i j s t : Nat)
    (hs : path[i]? = some (some s)) (ht : path[j]? = some (some t)) : s = t ↔ names[i]? = names[j]? := by
  obtain ⟨f, _, _, h3, h4⟩ := paths_symbols names [] 0 path h (by simp) (by simp)
  obtain ⟨n, hn, hfn⟩ := h4 i s hs
  obtain ⟨m, hm, hfm⟩ := h4 j t ht
  rw [hn, hm, Option.some.injEq]
  constructor
  · rintro rfl; exact h3 n m s hfn hfm
  · rintro rfl
    rw [hfn] at hfm; exact Option.some.inj hfm

example : [some 0, none, some 0, some 1] ∈ tryGetPaths [] 0 [[97], [98], [97], [98]] := by decide

/-- The tool also has paths that no configuration can take: a name that was found is not found when asked again, as each call has a
guard of its own. -/
theorem C68_config_vanishes_wrong : ∃ path ∈ tryGetPaths [] 0 [[97], [97]], ∀ (items : List (List UInt8 × Nat)) (val : Nat → Nat),
    [[97], [97]].map (Config.tryGet items) ≠ path.map fun o => some (o.map val) := by
  refine ⟨[some 0, none], by decide, ?_⟩
  intro items val h
  simp only [List.map_cons, List.map_nil, List.cons.injEq, Option.map_some, Option.map_none] at h
  rw [h.1] at h
  simp at h

end Verif.Props
