/- Property C100: with which configurations and how much memory a program starts. -/
import Verif.Nf.Start
import Verif.Env.HashMapProofs
import Verif.Env.MemoryProofs
import Verif.Props.IxgbeSetup

set_option autoImplicit false

namespace Verif.Props
namespace StartP
open Verif.Start
open Verif.Nf.RustPolicer (name)

/-- A configuration table as C sees it: strings that end with a zero, and values of 64 bits. -/
def Table (items : Items) : Prop := (∀ e ∈ items, 0 ∉ e.1) ∧ ∀ e ∈ items, e.2 < 2 ^ 64

/-- The value of the first item with a name. -/
def first (items : Items) (s : String) : Option Nat := (items.find? (fun e => decide (e.1 = name s))).map Prod.snd

theorem first_lt {items : Items} (h : Table items) {s : String} {v : Nat} (hf : first items s = some v) : v < 2 ^ 64 := by
  simp only [first, Option.map_eq_some_iff] at hf
  obtain ⟨e, he, rfl⟩ := hf
  exact h.2 e (List.mem_of_find?_eq_some he)

/-- The largest value that a call accepts. -/
def lim (n : Nat) : Kind → Nat
  | .u64 | .time => 2 ^ 64 - 1
  | .u32 => 2 ^ 32 - 1
  | .u16 => 2 ^ 16 - 1
  | .size => (2 ^ 64 - 1) / 64
  | .device => n - 1

def rd (n : Nat) (k : Kind) (o : Option Nat) : Option Nat :=
  match o with
  | none => none
  | some v => if v ≤ lim n k then some v else none

theorem read_eq {items : Items} (h : Table items) {n : Nat} (h0 : 0 < n) (h16 : n < 2 ^ 16) (k : Kind) (s : String) (hs : 0 ∉ name s) :
    readOne items n k (name s) = some (rd n k (first items s)) := by
  have ht := Config.tryGet_eq items (name s) h.1 hs
  have hl : (n + (2 ^ 64 - 1)) % 2 ^ 64 = n - 1 := by omega
  cases k <;> simp only [readOne, Config.getU64, Config.getU32, Config.getU16, Config.getSize, Config.getTime, getDevice, Config.get, ht,
    ← first.eq_def, Option.bind_eq_bind, Option.bind_some, rd, hl] <;>
    rcases hf : first items s with _ | v <;> simp only [Option.bind_some, ne_eq, not_true_eq_false, false_and, if_false] <;>
    (try split) <;> simp only [Option.bind_some, Option.some.injEq] <;> rename_i hv <;> split <;> rename_i hv2 <;>
    first | rfl | exact absurd hv hv2 | exact absurd hv2 hv | (rw [Nat.mod_eq_of_lt]; omega)

theorem readAll_cons {items : Items} (h : Table items) {n : Nat} (h0 : 0 < n) (h16 : n < 2 ^ 16) (k : Kind) (s : String) (hs : 0 ∉ name s)
    (r : List (Kind × String)) :
    readAll items n ((k, s) :: r) = match rd n k (first items s) with
      | none => some none
      | some v => (readAll items n r).map fun o => o.map (v :: ·) := by
  simp only [readAll, read_eq h h0 h16 k s hs, Option.bind_eq_bind, Option.bind_some]
  rcases rd n k (first items s) with _ | v
  · rfl
  · simp only
    rcases readAll items n r with _ | _ | vs <;> rfl


theorem readAll_iff {items : Items} (h : Table items) {n : Nat} (h0 : 0 < n) (h16 : n < 2 ^ 16) (k : Kind) (s : String) (hs : 0 ∉ name s)
    (r : List (Kind × String)) (ps : List Nat) : readAll items n ((k, s) :: r) = some (some ps) ↔
      ∃ v vs, ps = v :: vs ∧ first items s = some v ∧ v ≤ lim n k ∧ readAll items n r = some (some vs) := by
  rw [readAll_cons h h0 h16 k s hs]
  rcases hf : first items s with _ | v
  · simp [rd]
  · by_cases hl : v ≤ lim n k
    · simp only [rd, if_pos hl]
      constructor
      · intro hr
        simp only [Option.map_eq_some_iff] at hr
        obtain ⟨o, ho, vs, hvs, rfl⟩ := hr
        exact ⟨v, vs, rfl, rfl, hl, by rw [ho, hvs]⟩
      · rintro ⟨v', vs, rfl, hv, _, hr⟩
        obtain rfl := Option.some.inj hv
        rw [hr]; rfl
    · simp only [rd, if_neg hl]
      constructor
      · intro hr; simp at hr
      · rintro ⟨v', vs, rfl, hv, hl', hr⟩
        obtain rfl := Option.some.inj hv
        exact absurd hl' hl

theorem readAll_some {items : Items} (h : Table items) {n : Nat} (h0 : 0 < n) (h16 : n < 2 ^ 16) :
    ∀ l : List (Kind × String), (∀ e ∈ l, 0 ∉ name e.2) → ∃ o, readAll items n l = some o := by
  intro l
  induction l with
  | nil => intro _; exact ⟨_, rfl⟩
  | cons e r ih =>
    intro hl
    obtain ⟨o, ho⟩ := ih fun e he => hl e (by simp [he])
    obtain ⟨k, s⟩ := e
    rw [readAll_cons h h0 h16 k s (hl (k, s) (by simp)), ho]
    rcases rd n k (first items s) with _ | v
    · exact ⟨_, rfl⟩
    · exact ⟨_, rfl⟩

theorem names_ok : ∀ nf, ∀ e ∈ reads nf, 0 ∉ name e.2 := by
  intro nf; cases nf <;> simp only [reads, List.forall_mem_cons, List.not_mem_nil, false_imp_iff, implies_true, and_true] <;> decide +kernel

end StartP

open StartP in
/-- What a network function needs of its configuration, given as the value of the first item with each name, and of the number of
devices; `ps` are the values it gets. -/
def Configured : Start.Nf → (String → Option Nat) → Nat → List Nat → Prop
  | .nop, g, n, ps => ∃ wan lan, ps = [wan, lan] ∧ g "wan device" = some wan ∧ g "lan device" = some lan ∧ wan < n ∧ lan < n ∧ wan ≠ lan
  | .bridge, g, n, ps => 2 ≤ n ∧ ∃ bid exp cap stp, ps = [bid, exp, cap, stp] ∧ g "bid" = some bid ∧ g "expiration time" = some exp ∧
      g "capacity" = some cap ∧ cap < 2 ^ 58 ∧ g "stp update time" = some stp
  | .firewall, g, n, ps => n = 2 ∧ ∃ ext exp flows, ps = [ext, exp, flows] ∧ g "external device" = some ext ∧ ext < 2 ∧
      g "expiration time" = some exp ∧ g "max flows" = some flows ∧ flows < 2 ^ 58
  | .nat, g, n, ps => n = 2 ∧ ∃ addr wan flows exp port, ps = [addr, wan, flows, exp, port] ∧ g "external addr" = some addr ∧ addr < 2 ^ 32 ∧
      g "wan device" = some wan ∧ wan < 2 ∧ g "max flows" = some flows ∧ flows < 2 ^ 58 ∧ g "expiration time" = some exp ∧
      g "start port" = some port ∧ port < 2 ^ 16
  | .policer, g, n, ps => n = 2 ∧ ∃ wan rate burst flows, ps = [wan, rate, burst, flows] ∧ g "wan device" = some wan ∧ wan < 2 ∧
      g "rate" = some rate ∧ rate ≠ 0 ∧ g "burst" = some burst ∧ burst ≠ 0 ∧ g "max flows" = some flows ∧ flows < 2 ^ 58
  | .maglev, g, n, ps => 2 ≤ n ∧ ∃ flows height bexp fexp, ps = [flows, height, bexp, fexp] ∧ g "flow capacity" = some flows ∧
      flows < 2 ^ 58 ∧ g "cht height" = some height ∧ n ≤ height ∧ height < 40000 ∧ g "backend expiration time" = some bexp ∧
      g "flow expiration time" = some fexp
  | .router, g, _, ps => ∃ cap, ps = [cap] ∧ g "capacity" = some cap ∧ cap < 2 ^ 58

namespace StartP
open Verif.Start
open Verif.Nf.RustPolicer (name)

theorem configured_iff {items : Items} (h : Table items) {n : Nat} (h0 : 0 < n) (h16 : n < 2 ^ 16) (nf : Nf) (ps : List Nat) :
    Configured nf (first items) n ps ↔
      countOk nf n = true ∧ readAll items n (reads nf) = some (some ps) ∧ valuesOk nf n ps = true := by
  have hok := names_ok nf
  have hnil : ∀ ps, readAll items n [] = some (some ps) ↔ ps = [] := by intro ps; simp [readAll, eq_comm]
  have hlt : ∀ s v, first items s = some v → v ≤ 2 ^ 64 - 1 := fun s v hv => by have := first_lt h hv; omega
  cases nf <;> simp only [reads, List.forall_mem_cons, List.not_mem_nil, false_imp_iff, implies_true, and_true] at hok
  · obtain ⟨a, b⟩ := hok
    simp only [reads, readAll_iff h h0 h16 _ _ a, readAll_iff h h0 h16 _ _ b, hnil, lim, countOk, Configured]
    constructor
    · rintro ⟨w, l, rfl, h1, h2, h3, h4, h5⟩
      exact ⟨trivial, ⟨w, _, rfl, h1, by omega, l, _, rfl, h2, by omega, rfl⟩, by simpa [valuesOk] using fun e => h5 e.symm⟩
    · rintro ⟨-, ⟨w, _, rfl, h1, h3, l, _, rfl, h2, h4, rfl⟩, h5⟩
      exact ⟨w, l, rfl, h1, h2, by omega, by omega, fun e => by simp [valuesOk, e] at h5⟩
  · obtain ⟨a, b, c, d⟩ := hok
    simp only [reads, readAll_iff h h0 h16 _ _ a, readAll_iff h h0 h16 _ _ b, readAll_iff h h0 h16 _ _ c, readAll_iff h h0 h16 _ _ d, hnil,
      lim, countOk, Configured]
    constructor
    · rintro ⟨h2, x, y, z, w, rfl, hx, hy, hz, hl, hw⟩
      exact ⟨by simpa using h2, ⟨x, _, rfl, hx, hlt _ _ hx, y, _, rfl, hy, hlt _ _ hy, z, _, rfl, hz, by omega, w, _, rfl, hw, hlt _ _ hw, rfl⟩, rfl⟩
    · rintro ⟨h2, ⟨x, _, rfl, hx, -, y, _, rfl, hy, -, z, _, rfl, hz, hl, w, _, rfl, hw, -, rfl⟩, -⟩
      exact ⟨by simpa using h2, x, y, z, w, rfl, hx, hy, hz, by omega, hw⟩
  · obtain ⟨a, b, c⟩ := hok
    simp only [reads, readAll_iff h h0 h16 _ _ a, readAll_iff h h0 h16 _ _ b, readAll_iff h h0 h16 _ _ c, hnil, lim, countOk, Configured]
    constructor
    · rintro ⟨rfl, x, y, z, rfl, hx, hx2, hy, hz, hl⟩
      exact ⟨rfl, ⟨x, _, rfl, hx, by omega, y, _, rfl, hy, hlt _ _ hy, z, _, rfl, hz, by omega, rfl⟩, rfl⟩
    · rintro ⟨h2, ⟨x, _, rfl, hx, hx2, y, _, rfl, hy, -, z, _, rfl, hz, hl, rfl⟩, -⟩
      have h2 : n = 2 := by simpa using h2
      exact ⟨h2, x, y, z, rfl, hx, by omega, hy, hz, by omega⟩
  · obtain ⟨a, b, c, d, e⟩ := hok
    simp only [reads, readAll_iff h h0 h16 _ _ a, readAll_iff h h0 h16 _ _ b, readAll_iff h h0 h16 _ _ c, readAll_iff h h0 h16 _ _ d,
      readAll_iff h h0 h16 _ _ e, hnil, lim, countOk, Configured]
    constructor
    · rintro ⟨rfl, x, y, z, w, v, rfl, hx, hx2, hy, hy2, hz, hz2, hw, hv, hv2⟩
      exact ⟨rfl, ⟨x, _, rfl, hx, by omega, y, _, rfl, hy, by omega, z, _, rfl, hz, by omega, w, _, rfl, hw, hlt _ _ hw, v, _, rfl, hv, by omega,
        rfl⟩, rfl⟩
    · rintro ⟨h2, ⟨x, _, rfl, hx, hx2, y, _, rfl, hy, hy2, z, _, rfl, hz, hz2, w, _, rfl, hw, -, v, _, rfl, hv, hv2, rfl⟩, -⟩
      have h2 : n = 2 := by simpa using h2
      exact ⟨h2, x, y, z, w, v, rfl, hx, by omega, hy, by omega, hz, by omega, hw, hv, by omega⟩
  · obtain ⟨a, b, c, d⟩ := hok
    simp only [reads, readAll_iff h h0 h16 _ _ a, readAll_iff h h0 h16 _ _ b, readAll_iff h h0 h16 _ _ c, readAll_iff h h0 h16 _ _ d, hnil,
      lim, countOk, Configured]
    constructor
    · rintro ⟨rfl, x, y, z, w, rfl, hx, hx2, hy, hy2, hz, hz2, hw, hl⟩
      exact ⟨rfl, ⟨x, _, rfl, hx, by omega, y, _, rfl, hy, hlt _ _ hy, z, _, rfl, hz, hlt _ _ hz, w, _, rfl, hw, by omega, rfl⟩,
        by simp [valuesOk, hy2, hz2]⟩
    · rintro ⟨h2, ⟨x, _, rfl, hx, hx2, y, _, rfl, hy, -, z, _, rfl, hz, -, w, _, rfl, hw, hl, rfl⟩, hv⟩
      have h2 : n = 2 := by simpa using h2
      simp only [valuesOk, Bool.not_eq_true', Bool.or_eq_false_iff, beq_eq_false_iff_ne, ne_eq] at hv
      exact ⟨h2, x, y, z, w, rfl, hx, by omega, hy, hv.1, hz, hv.2, hw, by omega⟩
  · obtain ⟨a, b, c, d⟩ := hok
    simp only [reads, readAll_iff h h0 h16 _ _ a, readAll_iff h h0 h16 _ _ b, readAll_iff h h0 h16 _ _ c, readAll_iff h h0 h16 _ _ d, hnil,
      lim, countOk, Configured]
    constructor
    · rintro ⟨h2, x, y, z, w, rfl, hx, hx2, hy, hy2, hy3, hz, hw⟩
      refine ⟨by simpa using h2, ⟨x, _, rfl, hx, by omega, y, _, rfl, hy, by omega, z, _, rfl, hz, hlt _ _ hz, w, _, rfl, hw, hlt _ _ hw, rfl⟩, ?_⟩
      simp [valuesOk]; omega
    · rintro ⟨h2, ⟨x, _, rfl, hx, hx2, y, _, rfl, hy, hy2, z, _, rfl, hz, -, w, _, rfl, hw, -, rfl⟩, hv⟩
      simp [valuesOk] at hv
      exact ⟨by simpa using h2, x, y, z, w, rfl, hx, by omega, hy, by omega, by omega, hz, hw⟩
  · simp only [reads, readAll_iff h h0 h16 _ _ hok, hnil, lim, countOk, Configured]
    constructor
    · rintro ⟨x, rfl, hx, hl⟩
      exact ⟨trivial, ⟨x, _, rfl, hx, by omega, rfl⟩, rfl⟩
    · rintro ⟨-, ⟨x, _, rfl, hx, hl, rfl⟩, -⟩
      exact ⟨x, rfl, hx, by omega⟩

theorem nfInit_of {nf : Nf} {items : Items} {n : Nat} (s : MemoryAlloc.State) {vs : List Nat} (hc : countOk nf n = true)
    (hr : readAll items n (reads nf) = some (some vs)) (hv : valuesOk nf n vs = true) :
    nfInit nf items n s = (blocks nf n vs).bind fun bs => (allocAll s bs).map fun r => some ⟨vs, r.1, r.2⟩ := by
  simp only [nfInit, hc, hr, hv, Bool.not_true, Bool.false_eq_true, if_false, Option.bind_eq_bind, Option.bind_some]
  rcases blocks nf n vs with _ | bs
  · rfl
  · simp only [Option.bind_some]
    rcases allocAll s bs with _ | ⟨a, b⟩ <;> rfl

theorem nfInit_not {nf : Nf} {items : Items} (h : Table items) {n : Nat} (h0 : 0 < n) (h16 : n < 2 ^ 16) (s : MemoryAlloc.State)
    (hc : ¬ ∃ ps, Configured nf (first items) n ps) : nfInit nf items n s = some none := by
  simp only [configured_iff h h0 h16] at hc
  unfold nfInit
  split
  · rfl
  · rename_i hcount
    obtain ⟨o, ho⟩ := readAll_some h h0 h16 (reads nf) (names_ok nf)
    simp only [ho, Option.bind_eq_bind, Option.bind_some]
    rcases o with _ | vs
    · rfl
    · simp only
      split
      · rfl
      · rename_i hv
        exact absurd ⟨vs, by simpa using hcount, ho, by simpa using hv⟩ hc


theorem alloc_ok {s : MemoryAlloc.State} {count size : Nat} (hs : size ≤ 64) (h : s.usedLen + (count * size + 128) ≤ 2 ^ 28) :
    ∃ a s', MemoryAlloc.alloc s count size = some (a, s') ∧ s'.usedLen ≤ s.usedLen + (count * size + 128) := by
  obtain ⟨a, s', h1, h2⟩ := alloc_some (m := s) (count := count) (size := size) (by omega) (by omega)
  exact ⟨a, s', h1, by omega⟩

theorem alloc_inv {s s' : MemoryAlloc.State} {count size a : Nat} (hs : count * size < 2 ^ 64) (hu : s.usedLen ≤ 2 ^ 28)
    (h : MemoryAlloc.alloc s count size = some (a, s')) :
    s.memory + s.usedLen ≤ a ∧ a + count * size = s'.memory + s'.usedLen ∧ s'.memory = s.memory ∧ s'.usedLen ≤ 2 ^ 28 := by
  have hcs := C05.alloc_cases s count size (by omega) (by omega)
  simp only at hcs
  rw [h] at hcs
  have hle := C05.le_alignUp (s.memory + s.usedLen) (C05.alignment size) (C05.alignment_pos size)
  split at hcs
  · rename_i hfit
    simp only [Option.some.injEq, Prod.mk.injEq] at hcs
    obtain ⟨rfl, rfl⟩ := hcs
    refine ⟨hle, ?_, rfl, ?_⟩
    · show _ = s.memory + (_ - s.memory)
      omega
    · show _ - s.memory ≤ _
      omega
  · simp at hcs

/-- All the memory that requests ask for. -/
def total (bs : List (Nat × Nat)) : Nat := (bs.map fun b => b.1 * b.2).sum

theorem total_cons (b : Nat × Nat) (bs : List (Nat × Nat)) : total (b :: bs) = b.1 * b.2 + total bs := by simp [total]

theorem allocAll_ok : ∀ (bs : List (Nat × Nat)) (s : MemoryAlloc.State), (∀ b ∈ bs, b.2 ≤ 64) →
    s.usedLen + (total bs + 128 * bs.length) ≤ 2 ^ 28 →
    ∃ as s', allocAll s bs = some (as, s') ∧ s'.usedLen ≤ s.usedLen + (total bs + 128 * bs.length) := by
  intro bs
  induction bs with
  | nil => intro s _ _; exact ⟨_, _, rfl, by omega⟩
  | cons b bs ih =>
    intro s hb h
    obtain ⟨c, z⟩ := b
    rw [total_cons, List.length_cons] at h ⊢
    simp only at h ⊢
    obtain ⟨a, s1, h1, h2⟩ := alloc_ok (s := s) (count := c) (size := z) (hb (c, z) (by simp)) (by omega)
    obtain ⟨as, s2, h4, h5⟩ := ih s1 (fun b hb' => hb b (by simp [hb'])) (by omega)
    exact ⟨a :: as, s2, by simp [allocAll, h1, h4], by omega⟩

theorem allocAll_inv : ∀ (bs : List (Nat × Nat)) (s s' : MemoryAlloc.State) (as : List Nat), (∀ b ∈ bs, b.1 * b.2 < 2 ^ 64) →
    s.usedLen ≤ 2 ^ 28 → allocAll s bs = some (as, s') →
    as.length = bs.length ∧ s.usedLen + total bs ≤ s'.usedLen ∧ s'.usedLen ≤ 2 ^ 28 ∧ s'.memory = s.memory ∧
      (as.zip bs).Pairwise (fun x y => x.1 + x.2.1 * x.2.2 ≤ y.1) ∧
      ∀ x ∈ as.zip bs, s.memory + s.usedLen ≤ x.1 ∧ x.1 + x.2.1 * x.2.2 ≤ s'.memory + s'.usedLen := by
  intro bs
  induction bs with
  | nil =>
    intro s s' as _ hu h
    simp only [allocAll, Option.some.injEq, Prod.mk.injEq] at h
    obtain ⟨rfl, rfl⟩ := h
    simp only [total, List.map_nil, List.sum_nil, List.zip_nil_right, List.Pairwise.nil, List.not_mem_nil, false_imp_iff, implies_true]
    exact ⟨rfl, by omega, hu, trivial, trivial, trivial⟩
  | cons b bs ih =>
    intro s s' as hb hu h
    obtain ⟨c, z⟩ := b
    simp only [allocAll, Option.bind_eq_bind, Option.bind_eq_some_iff] at h
    obtain ⟨⟨a, s1⟩, h1, ⟨as1, s2⟩, h2, h3⟩ := h
    simp only [Option.some.injEq, Prod.mk.injEq] at h3
    obtain ⟨rfl, rfl⟩ := h3
    obtain ⟨i1, i2, i3, i4⟩ := alloc_inv (show c * z < 2 ^ 64 from hb (c, z) (by simp)) hu h1
    obtain ⟨j1, j2, j3, j4, j5, j6⟩ := ih s1 s2 as1 (fun b hb' => hb b (by simp [hb'])) i4 h2
    refine ⟨by simp [j1], by rw [total_cons]; simp only; omega, j3, by rw [j4, i3], ?_, ?_⟩
    · rw [List.zip_cons_cons, List.pairwise_cons]
      refine ⟨fun y hy => ?_, j5⟩
      have := (j6 y hy).1
      simp only
      omega
    · intro x hx
      rw [List.zip_cons_cons, List.mem_cons] at hx
      rcases hx with rfl | hx
      · simp only
        omega
      · have := j6 x hx
        omega


theorem mapBlocks_eq {cap : Nat} (h : cap < 2 ^ 58) : ∃ rc, mapBlocks cap = some [(1, 24), (rc, 32)] ∧ cap ≤ rc ∧ rc ≤ 2 * cap := by
  by_cases h0 : cap = 0
  · subst h0; exact ⟨0, rfl, by omega, by omega⟩
  · obtain ⟨r, h1, -, h3, h4⟩ := HashMap.getRealCapacity_spec cap (by omega) h0
    refine ⟨2 ^ r, by simp [mapBlocks, h1], h3, ?_⟩
    rcases r with _ | r
    · omega
    · have := h4 r (by omega)
      rw [Nat.pow_succ]
      omega

end StartP

/-- Memory in bytes that is enough for a network function with the given number of devices and values. -/
def startRoom : Start.Nf → Nat → List Nat → Nat
  | .bridge, n, [_, _, cap, _] => 80 * cap + n + 1200
  | .firewall, _, [_, _, flows] => 88 * flows + 1000
  | .nat, _, [_, _, flows, _, _] => 88 * flows + 1000
  | .policer, _, [_, _, _, flows] => 92 * flows + 1000
  | .maglev, n, [flows, height, _, _] => 90 * flows + 4 * (height * n) + 8 * height + 8 * n + 2000
  | _, _, _ => 0

/-- Memory in bytes without which it cannot start: what is kept for every entry of its table. -/
def startLeast : Start.Nf → List Nat → Nat
  | .bridge, [_, _, cap, _] => 48 * cap
  | .firewall, [_, _, flows] => 56 * flows
  | .nat, [_, _, flows, _, _] => 56 * flows
  | .policer, [_, _, _, flows] => 60 * flows
  | .maglev, [flows, _, _, _] => 58 * flows
  | _, _ => 0

namespace StartP
open Verif.Start
open Verif.Nf.RustPolicer (name)

theorem blocks_eq {nf : Nf} {g : String → Option Nat} {n : Nat} {ps : List Nat} (h16 : n < 2 ^ 16) (h : Configured nf g n ps) :
    ∃ bs, blocks nf n ps = some bs ∧ (∀ b ∈ bs, b.2 ≤ 64) ∧ (∀ b ∈ bs, b.1 * b.2 < 2 ^ 64) ∧
      total bs + 128 * bs.length ≤ startRoom nf n ps ∧ startLeast nf ps ≤ total bs := by
  cases nf <;> simp only [Configured] at h
  · obtain ⟨x, y, rfl, -⟩ := h
    exact ⟨[], rfl, by simp, by simp, by simp [total, startRoom], by simp [total, startLeast]⟩
  · obtain ⟨h2, x, y, z, w, rfl, hx, hy, hz, hl, hw⟩ := h
    obtain ⟨rc, hm, h3, h4⟩ := mapBlocks_eq hl
    refine ⟨_, by simp only [blocks, hm, Option.bind_eq_bind, Option.bind_some]; rfl, ?_, ?_, ?_, ?_⟩
    · simp [poolBlocks]
    · simp [poolBlocks]; omega
    · simp [poolBlocks, total, startRoom]; omega
    · simp [poolBlocks, total, startLeast]; omega
  · obtain ⟨rfl, x, y, z, rfl, hx, hx2, hy, hz, hl⟩ := h
    obtain ⟨rc, hm, h3, h4⟩ := mapBlocks_eq hl
    refine ⟨_, by simp only [blocks, hm, Option.bind_eq_bind, Option.bind_some]; rfl, ?_, ?_, ?_, ?_⟩
    · simp [poolBlocks]
    · simp [poolBlocks]; omega
    · simp [poolBlocks, total, startRoom]; omega
    · simp [poolBlocks, total, startLeast]; omega
  · obtain ⟨rfl, x, y, z, w, v, rfl, hx, hx2, hy, hy2, hz, hl, hw, hv, hv2⟩ := h
    obtain ⟨rc, hm, h3, h4⟩ := mapBlocks_eq hl
    refine ⟨_, by simp only [blocks, hm, Option.bind_eq_bind, Option.bind_some]; rfl, ?_, ?_, ?_, ?_⟩
    · simp [poolBlocks]
    · simp [poolBlocks]; omega
    · simp [poolBlocks, total, startRoom]; omega
    · simp [poolBlocks, total, startLeast]; omega
  · obtain ⟨rfl, x, y, z, w, rfl, hx, hx2, hy, hy2, hz, hz2, hw, hl⟩ := h
    obtain ⟨rc, hm, h3, h4⟩ := mapBlocks_eq hl
    refine ⟨_, by simp only [blocks, hm, Option.bind_eq_bind, Option.bind_some]; rfl, ?_, ?_, ?_, ?_⟩
    · simp [poolBlocks]
    · simp [poolBlocks]; omega
    · simp [poolBlocks, total, startRoom]; omega
    · simp [poolBlocks, total, startLeast]; omega
  · obtain ⟨h2, x, y, z, w, rfl, hx, hl, hy, hy2, hy3, hz, hw⟩ := h
    obtain ⟨rc, hm, h3, h4⟩ := mapBlocks_eq hl
    have hprod : y * (n - 1) ≤ y * n := Nat.mul_le_mul_left _ (by omega)
    have hprod2 : y * n ≤ 40000 * 65536 := Nat.mul_le_mul (by omega) (by omega)
    refine ⟨_, by simp only [blocks, hm, Option.bind_eq_bind, Option.bind_some]; rfl, ?_, ?_, ?_, ?_⟩
    · simp [poolBlocks, chtBlocks]
    · simp [poolBlocks, chtBlocks]; omega
    · simp [poolBlocks, chtBlocks, total, startRoom]; omega
    · simp [poolBlocks, chtBlocks, total, startLeast]; omega
  · obtain ⟨x, rfl, -⟩ := h
    exact ⟨[], rfl, by simp, by simp, by simp [total, startRoom], by simp [total, startLeast]⟩

end StartP

open StartP Verif.Start

/-- **C100** For every configuration table and number of devices: a network function whose needs are not met returns false, and one whose
needs are met gets the first value of each name, if the memory suffices. Missing: no devices, for which `C100_no_devices` shows that it
is false. -/
theorem C100_starts_partial (nf : Nf) (items : Items) (h : Table items) (n : Nat) (h0 : 0 < n) (h16 : n < 2 ^ 16) (s : MemoryAlloc.State) :
    (nfInit nf items n s = some none ↔ ¬ ∃ ps, Configured nf (first items) n ps) ∧
    (∀ st, nfInit nf items n s = some (some st) → Configured nf (first items) n st.values) ∧
    ∀ ps, Configured nf (first items) n ps → s.usedLen + startRoom nf n ps ≤ 268435456 →
      ∃ st, nfInit nf items n s = some (some st) ∧ st.values = ps ∧ st.mem.usedLen ≤ s.usedLen + startRoom nf n ps := by
  have key : ∀ ps, Configured nf (first items) n ps → ∃ bs, blocks nf n ps = some bs ∧
      nfInit nf items n s = (allocAll s bs).map fun r => some ⟨ps, r.1, r.2⟩ := by
    intro ps hc
    obtain ⟨c1, c2, c3⟩ := (configured_iff h h0 h16 nf ps).mp hc
    obtain ⟨bs, b1, -⟩ := blocks_eq h16 hc
    exact ⟨bs, b1, by rw [nfInit_of s c1 c2 c3, b1]; rfl⟩
  refine ⟨⟨?_, fun hc => nfInit_not h h0 h16 s hc⟩, ?_, ?_⟩
  · rintro hn ⟨ps, hc⟩
    obtain ⟨bs, -, b2⟩ := key ps hc
    rw [hn] at b2
    rcases allocAll s bs with _ | r <;> simp at b2
  · intro st hst
    by_cases hc : ∃ ps, Configured nf (first items) n ps
    · obtain ⟨ps, hc⟩ := hc
      obtain ⟨bs, -, b2⟩ := key ps hc
      rw [hst, eq_comm, Option.map_eq_some_iff] at b2
      obtain ⟨r, -, hr⟩ := b2
      obtain rfl := Option.some.inj hr
      exact hc
    · rw [nfInit_not h h0 h16 s hc] at hst
      simp at hst
  · intro ps hc hr
    obtain ⟨bs, b1, b2⟩ := key ps hc
    obtain ⟨bs', d1, d2, -, d4, -⟩ := blocks_eq h16 hc
    obtain rfl : bs = bs' := by rw [b1] at d1; exact Option.some.inj d1
    obtain ⟨as, s', e1, e2⟩ := allocAll_ok bs s d2 (by omega)
    exact ⟨⟨ps, as, s'⟩, by rw [b2, e1]; rfl, rfl, by simp only; omega⟩

/-- **C100** If a network function starts, no size that it asks for has wrapped around: its blocks have room for all that it asks for, do
not overlap, and lie in the memory of the allocator after what was in use. -/
theorem C100_blocks (nf : Nf) (items : Items) (h : Table items) (n : Nat) (h0 : 0 < n) (h16 : n < 2 ^ 16) (s : MemoryAlloc.State)
    (hu : s.usedLen ≤ 268435456) (st : Started) (hst : nfInit nf items n s = some (some st)) :
    ∃ bs, blocks nf n st.values = some bs ∧ st.addrs.length = bs.length ∧ (∀ b ∈ bs, b.1 * b.2 < 2 ^ 64) ∧
      (st.addrs.zip bs).Pairwise (fun x y => x.1 + x.2.1 * x.2.2 ≤ y.1) ∧
      (∀ x ∈ st.addrs.zip bs, s.memory + s.usedLen ≤ x.1 ∧ x.1 + x.2.1 * x.2.2 ≤ st.mem.memory + st.mem.usedLen) ∧
      st.mem.memory = s.memory ∧ st.mem.usedLen ≤ 268435456 ∧ s.usedLen + startLeast nf st.values ≤ st.mem.usedLen := by
  have hc := (C100_starts_partial nf items h n h0 h16 s).2.1 st hst
  obtain ⟨c1, c2, c3⟩ := (configured_iff h h0 h16 nf st.values).mp hc
  obtain ⟨bs, d1, -, d3, -, d5⟩ := blocks_eq h16 hc
  rw [nfInit_of s c1 c2 c3, d1, Option.bind_some, Option.map_eq_some_iff] at hst
  obtain ⟨⟨as, s'⟩, e1, e2⟩ := hst
  simp only [Option.some.injEq] at e2
  rw [← e2] at d1 d5 ⊢
  obtain ⟨j1, j2, j3, j4, j5, j6⟩ := allocAll_inv bs s s' as d3 (by omega) e1
  refine ⟨bs, d1, j1, d3, j5, j6, j4, ?_, ?_⟩
  · simp only; omega
  · simp only at d5 ⊢; omega

/-- **C100** Tables of almost 2^58 entries are accepted; with one for which the memory does not suffice the program halts, where nf_init
could have returned false. -/
theorem C100_too_large (nf : Nf) (items : Items) (h : Table items) (n : Nat) (h0 : 0 < n) (h16 : n < 2 ^ 16) (s : MemoryAlloc.State)
    (hu : s.usedLen ≤ 268435456) (ps : List Nat) (hc : Configured nf (first items) n ps) (hl : 268435456 < s.usedLen + startLeast nf ps) :
    nfInit nf items n s = none := by
  have h1 := (C100_starts_partial nf items h n h0 h16 s)
  rcases hr : nfInit nf items n s with _ | _ | st
  · rfl
  · exact absurd ⟨ps, hc⟩ (h1.1.mp hr)
  · obtain ⟨bs, -, -, -, -, -, -, h7, h8⟩ := C100_blocks nf items h n h0 h16 s hu st hr
    have hc2 := h1.2.1 st hr
    have e1 := ((configured_iff h h0 h16 nf ps).mp hc).2.1
    have e2 := ((configured_iff h h0 h16 nf st.values).mp hc2).2.1
    rw [e1] at e2
    simp only [Option.some.injEq] at e2
    rw [← e2] at h8
    omega


/-- **C100** With 2 to 11 devices, if what the network function needs is configured and the memory suffices for it and for 9 MB more, and
the cards are as they are after their initialization, the program gets to the point where it receives packets: the network function has
its values, and every device its agent. -/
theorem C100_start (nf : Nf) (items : Items) (h : Table items) (n : Nat) (h2 : 2 ≤ n) (h11 : n ≤ 11) (ps : List Nat)
    (hc : Configured nf (first items) n ps) (phys : Nat → Nat) (hphys : ∀ x, phys x < 2 ^ 64) (hal : ∀ x, phys x % 16 = x % 16)
    (regs : Nat → IxgbeRegs.Regs) (s : MemoryAlloc.State) (hm : s.usedLen + startRoom nf n ps + 9 * 2 ^ 20 ≤ 268435456)
    (htx : ∀ d q, d < n → q < 128 → (regs d (0x6028 + 0x40 * q)).getLsbD 25 = false)
    (hrx : ∀ d, d < n → (regs d 0x1028).getLsbD 25 = false) (hsec : ∀ d, d < n → (regs d 0x8D04).getLsbD 0 = true) :
    ∃ st agents, start nf items n phys regs s = some (some (st, agents)) ∧ st.values = ps ∧ agents.length = n := by
  obtain ⟨a, s1, e1, u1⟩ := alloc_ok (s := s) (count := n) (size := 8) (by omega) (by omega)
  obtain ⟨st, e2, v2, u2⟩ := (C100_starts_partial nf items h n (by omega) (by omega) s1).2.2 ps hc (by omega)
  have ht : total [(n, 16), (n, 6), (n, 6), (n, 64)] + 128 * [(n, 16), (n, 6), (n, 6), (n, 64)].length = 92 * n + 512 := by
    rw [total_cons, total_cons, total_cons, total_cons]
    simp only [total, List.map_nil, List.sum_nil, List.length_cons, List.length_nil]
    omega
  have u2' : st.mem.usedLen ≤ 268435456 - 8 * 2 ^ 20 - 10000 := by omega
  obtain ⟨as, s3, e3, u3⟩ := allocAll_ok [(n, 16), (n, 6), (n, 6), (n, 64)] st.mem (by simp) (by rw [ht]; clear ht hm u1 u2; omega)
  have h92 : 92 * n + 512 ≤ 10000 := by clear u3 ht hm u1 u2 u2'; omega
  have u3' : s3.usedLen ≤ st.mem.usedLen + 10000 := by rw [ht] at u3; exact Nat.le_trans u3 (Nat.add_le_add_left h92 _)
  clear ht u3 hm u1 u2
  obtain ⟨agents, s4, e4⟩ := C56_succeeds (phys := phys) (devices := n) (s := ⟨s3, regs, fun _ => false, fun _ => false⟩) hphys hal h2 h11
    (by simp only; omega) htx hrx hsec
  have hlen := (C56_ready (phys := phys) (devices := n) hphys (by omega) (by simp only; omega) e4).1
  refine ⟨st, agents, ?_, v2, hlen⟩
  simp only [start, e1, e2, e3, e4, Option.bind_eq_bind, Option.bind_some]

/-- The numbers of devices for which a network function is meant. -/
def startDevices : Nf → Nat → Prop
  | .nop, n | .bridge, n | .maglev, n => 2 ≤ n ∧ n ≤ 11
  | .firewall, n | .nat, n | .policer, n => n = 2
  | .router, _ => False

/-- **C100** The configurations that are shipped with the network functions are enough to start them. Missing: the router, for which
`C100_router` shows the opposite. -/
theorem C100_shipped_partial (nf : Nf) (n : Nat) (hn : startDevices nf n) (phys : Nat → Nat) (hphys : ∀ x, phys x < 2 ^ 64)
    (hal : ∀ x, phys x % 16 = x % 16) (regs : Nat → IxgbeRegs.Regs) (s : MemoryAlloc.State) (hm : s.usedLen ≤ 200000000)
    (htx : ∀ d q, d < n → q < 128 → (regs d (0x6028 + 0x40 * q)).getLsbD 25 = false)
    (hrx : ∀ d, d < n → (regs d 0x1028).getLsbD 25 = false) (hsec : ∀ d, d < n → (regs d 0x8D04).getLsbD 0 = true) :
    ∃ st agents, start nf (shipped nf) n phys regs s = some (some (st, agents)) ∧ agents.length = n := by
  have ht : Table (shipped nf) := by
    constructor
    · cases nf <;> simp only [shipped, List.forall_mem_cons, List.not_mem_nil, false_imp_iff, implies_true, and_true] <;> decide +kernel
    · cases nf <;> simp only [shipped, List.forall_mem_cons, List.not_mem_nil, false_imp_iff, implies_true, and_true] <;> omega
  have hr : ∃ ps, Configured nf (first (shipped nf)) n ps ∧ startRoom nf n ps ≤ 20000000 ∧ 2 ≤ n ∧ n ≤ 11 := by
    cases nf <;> simp only [startDevices] at hn
    · exact ⟨[0, 1], ⟨0, 1, rfl, by decide +kernel, by decide +kernel, by omega, by omega, by omega⟩, by simp [startRoom], hn⟩
    · exact ⟨[0, 4000000000, 131072, 1000000000000000], ⟨hn.1, _, _, _, _, rfl, by decide +kernel, by decide +kernel, by decide +kernel,
        by omega, by decide +kernel⟩, by simp only [startRoom]; omega, hn⟩
    · exact ⟨[1, 4000000000, 65536], ⟨hn, _, _, _, rfl, by decide +kernel, by omega, by decide +kernel, by decide +kernel, by omega⟩,
        by simp only [startRoom]; omega, by omega, by omega⟩
    · exact ⟨[0, 1, 65536, 4000000000, 0], ⟨hn, _, _, _, _, _, rfl, by decide +kernel, by omega, by decide +kernel, by omega, by decide +kernel,
        by omega, by decide +kernel, by decide +kernel, by omega⟩, by simp only [startRoom]; omega, by omega, by omega⟩
    · exact ⟨[0, 1000000000000000, 1000000000000000, 65536], ⟨hn, _, _, _, _, rfl, by decide +kernel, by omega, by decide +kernel, by omega,
        by decide +kernel, by omega, by decide +kernel, by omega⟩, by simp only [startRoom]; omega, by omega, by omega⟩
    · exact ⟨[65536, 97, 1000000000000000, 4000000000], ⟨hn.1, _, _, _, _, rfl, by decide +kernel, by omega, by decide +kernel, by omega,
        by omega, by decide +kernel, by decide +kernel⟩, by simp only [startRoom]; omega, hn⟩
  obtain ⟨ps, hc, hroom, h2, h11⟩ := hr
  obtain ⟨st, agents, e, -, hl⟩ := C100_start nf (shipped nf) ht n h2 h11 ps hc phys hphys hal regs s (by omega) htx hrx hsec
  exact ⟨st, agents, e, hl⟩

/-- **C100** Disagreement: the configuration that is shipped with the router lacks the value that it reads, so that the program always
ends with status 1. -/
theorem C100_router (n : Nat) (h0 : 0 < n) (h16 : n < 2 ^ 16) (phys : Nat → Nat) (regs : Nat → IxgbeRegs.Regs) (s : MemoryAlloc.State)
    (hm : s.usedLen ≤ 200000000) : start .router (shipped .router) n phys regs s = some none := by
  obtain ⟨a, s1, e1, -⟩ := alloc_ok (s := s) (count := n) (size := 8) (by omega) (by omega)
  have e2 : nfInit .router (shipped .router) n s1 = some none := by
    refine nfInit_not ⟨?_, ?_⟩ h0 h16 s1 ?_
    · simp only [shipped, List.forall_mem_cons, List.not_mem_nil, false_imp_iff, implies_true, and_true]; decide +kernel
    · simp only [shipped, List.forall_mem_cons, List.not_mem_nil, false_imp_iff, implies_true, and_true]; omega
    · rintro ⟨ps, cap, -, hg, -⟩
      have : first (shipped .router) "capacity" = none := by decide +kernel
      rw [this] at hg
      simp at hg
  simp only [start, e1, e2, Option.bind_eq_bind, Option.bind_some]

/-- **C100** Disagreement: without devices, `devices_count - 1` is the largest number, and any two devices are accepted. -/
theorem C100_no_devices (s : MemoryAlloc.State) :
    ∃ items, Table items ∧ ∃ st, nfInit .nop items 0 s = some (some st) ∧ st.values = [5, 6] :=
  ⟨[(Nf.RustPolicer.name "wan device", 5), (Nf.RustPolicer.name "lan device", 6)],
    ⟨by simp only [List.forall_mem_cons, List.not_mem_nil, false_imp_iff, implies_true, and_true]; decide +kernel,
     by simp only [List.forall_mem_cons, List.not_mem_nil, false_imp_iff, implies_true, and_true]; omega⟩,
    ⟨[5, 6], [], s⟩, rfl, rfl⟩

namespace StartP
open Verif.Start

/-- A memory for the examples. -/
def exMem : MemoryAlloc.State := ⟨4096, 0, fun _ => 0⟩

/-- The hypotheses of `C100_starts_partial`, `C100_blocks` and `C100_start` are met by the bridge's configuration with 4 devices. -/
example : Table (shipped .bridge) ∧ Configured .bridge (first (shipped .bridge)) 4 [0, 4000000000, 131072, 1000000000000000] ∧
    exMem.usedLen + startRoom .bridge 4 [0, 4000000000, 131072, 1000000000000000] + 9 * 2 ^ 20 ≤ 268435456 :=
  ⟨⟨by simp only [shipped, List.forall_mem_cons, List.not_mem_nil, false_imp_iff, implies_true, and_true]; decide +kernel,
    by simp only [shipped, List.forall_mem_cons, List.not_mem_nil, false_imp_iff, implies_true, and_true]; omega⟩,
   ⟨by omega, _, _, _, _, rfl, by decide +kernel, by decide +kernel, by decide +kernel, by omega, by decide +kernel⟩, by decide⟩

/-- The hypotheses of `C100_too_large` are met by a firewall for 5 million flows. -/
example : Configured .firewall (fun s => if s = "external device" then some 1 else if s = "max flows" then some 5000000 else some 7) 2
    [1, 7, 5000000] ∧ 268435456 < exMem.usedLen + startLeast .firewall [1, 7, 5000000] :=
  ⟨⟨rfl, _, _, _, rfl, by decide, by omega, by decide, by decide, by omega⟩, by decide⟩

/-- The hypotheses of `C100_shipped_partial` and `C100_router` are met. -/
example : startDevices .maglev 3 ∧ (∀ x, (x % 2 ^ 64) < 2 ^ 64) ∧ (∀ x, (x % 2 ^ 64) % 16 = x % 16) ∧ exMem.usedLen ≤ 200000000 ∧
    (∀ d q, d < 3 → q < 128 → ((fun _ a => if a = 0x8D04 then 1#32 else 0#32 : Nat → IxgbeRegs.Regs) d (0x6028 + 0x40 * q)).getLsbD 25 = false) ∧
    (∀ d, d < 3 → ((fun _ a => if a = 0x8D04 then 1#32 else 0#32 : Nat → IxgbeRegs.Regs) d 0x8D04).getLsbD 0 = true) := by
  refine ⟨⟨by omega, by omega⟩, fun x => by omega, fun x => by omega, by decide, ?_, ?_⟩
  · intro d q _ _
    simp only
    split <;> decide
  · intro d _
    simp

end StartP
end Verif.Props
