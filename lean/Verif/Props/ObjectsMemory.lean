/- The memory of the symbolic execution (C74). -/
import Verif.Tool.ObjectsMemory
import Verif.Props.Expr
import Verif.Props.HeapOwn
import Mathlib.Data.List.Nodup

set_option autoImplicit false

namespace Verif.Tool.Heap

/-- Reading only elements below the count ends within them. -/
theorem readLoop_inside {o : Obj} (hs : o.Sized) (hc : ∀ k, o.canRead k = true → k < o.count) (hn : o.count < 2 ^ 64) {total : Nat} :
    ∀ (fuel : Nat) {index : Nat} {result r : Bits}, readLoop o total fuel index result = some r → result.length < total →
    index * o.width + (total - result.length) ≤ o.count * o.width
  | 0, index, result, r, h, hl => by simp [readLoop, hl] at h
  | fuel + 1, index, result, r, h, hl => by
    unfold readLoop at h
    rw [if_pos hl] at h
    split at h
    swap
    · simp at h
    rename_i hcr
    have hi := hc index hcr
    have e : (index + 1) * o.width = index * o.width + o.width := Nat.succ_mul _ _
    have hle : (index + 1) * o.width ≤ o.count * o.width := Nat.mul_le_mul_right _ hi
    by_cases hd : result.length + o.width < total
    · have := readLoop_inside hs hc hn fuel h (by simpa [hs.length] using hd)
      rw [Nat.mod_eq_of_lt (by omega)] at this
      simp only [List.length_append, hs.length] at this
      omega
    · omega

/-- Writing only elements below the count ends within them. -/
theorem writeLoop_inside : ∀ (fuel : Nat) {o o' : Obj} {index offset : Nat} {rest : Bits}, o.Sized → (∀ k, o.canWrite k = true → k < o.count) → o.count < 2 ^ 64 →
    offset < o.width → writeLoop false fuel o index offset rest = some o' → rest ≠ [] → index * o.width + offset + rest.length ≤ o.count * o.width
  | 0, o, o', index, offset, rest, _, _, _, _, h, hl => by
    have : rest.length ≠ 0 := by simpa using hl
    simp [writeLoop, this] at h
  | fuel + 1, o, o', index, offset, rest, hs, hc, hn, ho, h, hl => by
    have hz : rest.length ≠ 0 := by simpa using hl
    unfold writeLoop at h
    rw [if_neg hz] at h
    by_cases hcw : o.canWrite index = true
    swap
    · simp [hcw] at h
    rw [if_pos hcw] at h
    have hi := hc index hcw
    have e : (index + 1) * o.width = index * o.width + o.width := Nat.succ_mul _ _
    have hle : (index + 1) * o.width ≤ o.count * o.width := Nat.mul_le_mul_right _ hi
    have hl := chunkOf_length (rest := rest) ho
    have hcl : offset + (chunkOf o.width offset rest).length ≤ o.width := by omega
    obtain ⟨m1, -⟩ := merged_spec (chunk := chunkOf o.width offset rest) (hs.length index) hcl (by omega)
    have hwe : writeElem o index offset (chunkOf o.width offset rest) false = some (o.setElem index (merged o.width offset (chunkOf o.width offset rest) (o.contents index).1)) := by
      simp [writeElem, maybeRev]
    simp only [hwe] at h
    have hs1 : (o.setElem index (merged o.width offset (chunkOf o.width offset rest) (o.contents index).1)).Sized := by
      refine ⟨hs.pos, fun k => ?_⟩
      show (if k = index then _ else _ : Bits × Bool).1.length = _
      split
      · exact m1
      · exact hs.length k
    by_cases hd : rest.length ≤ o.width - offset
    · omega
    · have := writeLoop_inside fuel hs1 hc hn hs.pos h (by
        intro hnil
        have := congrArg List.length hnil
        simp only [List.length_drop, List.length_nil] at this
        omega)
      rw [Nat.mod_eq_of_lt (by omega)] at this
      simp only [List.length_drop] at this
      change (index + 1) * o.width + 0 + _ ≤ o.count * o.width at this
      omega

/-- Elements become present only where something is written. -/
theorem writeLoop_present : ∀ (fuel : Nat) {o o' : Obj} {index offset : Nat} {rest : Bits}, o.Sized → offset < o.width → index * o.width + offset + rest.length ≤ 2 ^ 64 * o.width →
    writeLoop false fuel o index offset rest = some o' → ∀ k, (o'.contents k).2 = true → (o.contents k).2 = true ∨ k * o.width < index * o.width + offset + rest.length
  | 0, o, o', index, offset, rest, _, _, _, h, k, hk => by
    unfold writeLoop at h
    split at h
    · cases h; exact .inl hk
    · cases h
  | fuel + 1, o, o', index, offset, rest, hs, ho, hr, h, k, hk => by
    unfold writeLoop at h
    by_cases hz : rest.length = 0
    · rw [if_pos hz] at h; cases h; exact .inl hk
    rw [if_neg hz] at h
    by_cases hcw : o.canWrite index = true
    swap
    · simp [hcw] at h
    rw [if_pos hcw] at h
    have e : (index + 1) * o.width = index * o.width + o.width := Nat.succ_mul _ _
    have hl := chunkOf_length (rest := rest) ho
    have hcl : offset + (chunkOf o.width offset rest).length ≤ o.width := by omega
    obtain ⟨m1, -⟩ := merged_spec (chunk := chunkOf o.width offset rest) (hs.length index) hcl (by omega)
    have hwe : writeElem o index offset (chunkOf o.width offset rest) false = some (o.setElem index (merged o.width offset (chunkOf o.width offset rest) (o.contents index).1)) := by
      simp [writeElem, maybeRev]
    simp only [hwe] at h
    have hs1 : (o.setElem index (merged o.width offset (chunkOf o.width offset rest) (o.contents index).1)).Sized := by
      refine ⟨hs.pos, fun k => ?_⟩
      show (if k = index then _ else _ : Bits × Bool).1.length = _
      split
      · exact m1
      · exact hs.length k
    have hthis : ∀ (b : Bits), ((o.setElem index b).contents k).2 = true → (o.contents k).2 = true ∨ k * o.width < index * o.width + offset + rest.length := by
      intro b hb
      by_cases hki : k = index
      · subst hki; right; omega
      · left
        have : ((o.setElem index b).contents k) = o.contents k := if_neg hki
        rw [this] at hb; exact hb
    by_cases hd : rest.length ≤ o.width - offset
    · have hnil : rest.drop (chunkOf o.width offset rest).length = [] := by
        apply List.drop_eq_nil_of_le; omega
      rw [hnil] at h
      have h' : o' = o.setElem index (merged o.width offset (chunkOf o.width offset rest) (o.contents index).1) := by
        cases fuel with
        | zero => simpa [writeLoop] using h.symm
        | succ n => simpa [writeLoop] using h.symm
      rw [h'] at hk
      exact hthis _ hk
    · have hmod : (index + 1) % 2 ^ 64 = index + 1 := by
        apply Nat.mod_eq_of_lt
        have : (index + 1) * o.width < 2 ^ 64 * o.width := by omega
        exact Nat.lt_of_mul_lt_mul_right this
      rw [hmod] at h
      have hle : (index + 1) * o.width + 0 + (rest.drop (chunkOf o.width offset rest).length).length = index * o.width + offset + rest.length := by
        simp only [List.length_drop]; omega
      rcases writeLoop_present fuel hs1 hs.pos (by
        show (index + 1) * o.width + 0 + _ ≤ 2 ^ 64 * o.width
        omega) h k hk with h1 | h1
      · exact hthis _ h1
      · right
        change k * o.width < (index + 1) * o.width + 0 + _ at h1
        omega

end Verif.Tool.Heap

namespace Verif.Props.ObjMem
open Verif.Tool.Expr Verif.Tool.Heap Verif.Tool.ObjectsMemory

/-- The number of bytes of an object. -/
def bytes (o : Special) (ρ : Asg) : Nat := (o.obj ρ).count * o.size.val ρ

/-- The `n` bytes from address `a` on are in the object. -/
def Within (o : Special) (ρ : Asg) (a n : Nat) : Prop := eval ρ o.base ≤ a ∧ a + n ≤ eval ρ o.base + bytes o ρ

/-- The address is of no object. -/
def Free (s : State) (ρ : Asg) (a : Nat) : Prop := a < 2 ^ 64 ∧ ∀ o ∈ s.objs, ¬ Within o ρ a 1

/-- What allocation makes of an object (heap.py:32-60), here for one assignment: elements have as many bits as the size says,
those that may be read exist, those that may be written do unless the object is ephemeral, and it ends before the end of memory. -/
structure ObjOk (ρ : Asg) (o : Special) : Prop where
  sized : (o.obj ρ).Sized
  width : (o.obj ρ).width = 8 * o.size.val ρ
  read : ∀ k, (o.obj ρ).canRead k = true → k < (o.obj ρ).count
  write : (o.obj ρ).fractions ≠ none → ∀ k, (o.obj ρ).canWrite k = true → k < (o.obj ρ).count
  fits : eval ρ o.base + bytes o ρ < 2 ^ 64

/-- Objects have different bases, and in the machine they do not overlap. -/
structure Placed (ρ : Asg) (s : State) : Prop where
  ok : ∀ o ∈ s.objs, ObjOk ρ o
  bases : (s.objs.map Special.base).Nodup
  apart : ∀ o ∈ s.objs, ∀ o' ∈ s.objs, o.base ≠ o'.base → ∀ a, ¬ (Within o ρ a 1 ∧ Within o' ρ a 1)

/-- The memory of the machine contains what the state says. -/
structure Represents (ρ : Asg) (s : State) (mem : Nat → Bool) : Prop where
  objs : ∀ o ∈ s.objs, ∀ i < 8 * bytes o ρ, (o.obj ρ).bit i = mem (8 * eval ρ o.base + i)
  flat : ∀ a, Free s ρ a → ∀ i < 8, s.flat ρ (8 * a + i) = mem (8 * a + i)

/-- What is assumed of claripy, of the sizes and of the address. -/
structure Setting (K : Claripy) (minus : Exp → Nat → Exp) (C : Asg → Prop) (s : State) (addr : Exp) : Prop where
  claripy : ClaripyOK C K
  minus : MinusOK minus
  sizes : ∀ k ∈ s.keys, SizeOK C k.2
  wf : WF addr
  width : width addr = 64

/-- The claim of C13 about this address: base, index and offset put together are the address. -/
def Exact (K : Claripy) (fuel : Nat) (minus : Exp → Nat → Exp) (C : Asg → Prop) (s : State) (addr : Exp) (ρ : Asg) : Prop :=
  ∀ a r size, simplify K C fuel addr [] = some a → baseIndexOffset C minus s.keys a = some r → (r.base, size) ∈ s.keys →
    (eval ρ r.base + r.index ρ * size.val ρ + r.offset) % 2 ^ 64 = eval ρ addr

/-- For objects whose elements are not owned, which may be written anywhere: the store is to elements that exist. -/
def Bounded (K : Claripy) (fuel : Nat) (minus : Exp → Nat → Exp) (C : Asg → Prop) (s : State) (addr : Exp) (n : Nat) (ρ : Asg) : Prop :=
  ∀ a r, simplify K C fuel addr [] = some a → baseIndexOffset C minus s.keys a = some r →
    ∀ o ∈ s.objs, o.base = r.base → (o.obj ρ).fractions = none → r.index ρ * o.size.val ρ + r.offset + n ≤ bytes o ρ

/-- An access that the code takes to be of no object is in the machine not of an object either. -/
def Outside (K : Claripy) (fuel : Nat) (minus : Exp → Nat → Exp) (C : Asg → Prop) (s : State) (addr : Exp) (n : Nat) (ρ : Asg) : Prop :=
  ∀ a, simplify K C fuel addr [] = some a → lookup C minus s.keys a = some none → ∀ b, eval ρ addr ≤ b → b < eval ρ addr + n → Free s ρ b

theorem lookup_some {C : Asg → Prop} {minus : Exp → Nat → Exp} {keys : List (Exp × Size)} {addr : Exp} {r : Bio}
    (h : lookup C minus keys addr = some (some r)) : baseIndexOffset C minus keys addr = some r := by
  unfold lookup at h
  unfold baseIndexOffset
  split at h
  · split at h
    · simp at h
    · rename_i hm
      simp only [hm]
      cases hd : decompose C minus _ _ _ with
      | none => simp [hd] at h
      | some x => simp only [hd, Option.map_some, Option.some.injEq] at h; rw [h]
    · cases h
  · rename_i hne
    split at h
    · rename_i hk
      simp only [Option.some.injEq] at h
      simp [hk, ← h]
    · simp at h

/-- The object of a decomposition. -/
theorem target {s : State} {ρ : Asg} (hp : Placed ρ s) {C : Asg → Prop} {minus : Exp → Nat → Exp} {a : Exp} {r : Bio}
    (hsz : ∀ k ∈ s.keys, SizeOK C k.2) (hb : baseIndexOffset C minus s.keys a = some r) {o : Special} (ho : o ∈ s.objs) (hob : o.base = r.base) (hρ : C ρ) :
    (r.base, o.size) ∈ s.keys ∧ r.offset < o.size.val ρ := by
  obtain ⟨size, hk, hlt⟩ := Verif.Props.C13_offset_in_element C minus s.keys a r hsz hb
  obtain ⟨o2, ho2, he⟩ := List.mem_map.mp hk
  simp only [Prod.mk.injEq] at he
  have : o2 = o := by
    have := hp.bases
    exact List.inj_on_of_nodup_map this ho2 ho (by show o2.base = o.base; rw [he.1, hob])
  subst this
  rw [← he.2] at hk hlt
  exact ⟨hk, hlt ρ hρ⟩

theorem bitsAt_length (mem : Nat → Bool) (a n : Nat) : (bitsAt mem a n).length = 8 * n := by simp [bitsAt]

theorem bitsAt_get (mem : Nat → Bool) (a n : Nat) {j : Nat} (hj : j < 8 * n) : (bitsAt mem a n).getD j false = mem (8 * a + j) := by
  simp [bitsAt, List.getD_eq_getElem?_getD, List.getElem?_map, List.getElem?_range hj]

/-- Where the access is in the object and in memory. -/
theorem place {ρ : Asg} {o : Special} (hok : ObjOk ρ o) {ix off n : Nat} (hn : 0 < n)
    (hin : ix * (o.obj ρ).width + 8 * off + 8 * n ≤ (o.obj ρ).count * (o.obj ρ).width) :
    let p := (eval ρ o.base + ix * o.size.val ρ + off) % 2 ^ 64
    Within o ρ p n ∧ 8 * p = 8 * eval ρ o.base + (ix * (o.obj ρ).width + 8 * off) := by
  intro p
  have hf := hok.fits
  have hw := hok.width
  have e1 : ix * (o.obj ρ).width = 8 * (ix * o.size.val ρ) := by rw [hw]; ring
  have e2 : (o.obj ρ).count * (o.obj ρ).width = 8 * bytes o ρ := by rw [hw]; unfold bytes; ring
  rw [e1, e2] at hin
  have hp : p = eval ρ o.base + ix * o.size.val ρ + off := Nat.mod_eq_of_lt (by omega)
  rw [hp, e1]
  exact ⟨⟨by omega, by omega⟩, by omega⟩

theorem count_lt {ρ : Asg} {o : Special} (hok : ObjOk ρ o) : (o.obj ρ).count < 2 ^ 64 := by
  have hf := hok.fits
  have : 0 < o.size.val ρ := by
    have := hok.sized.pos; rw [hok.width] at this; omega
  have : (o.obj ρ).count * 1 ≤ bytes o ρ := Nat.mul_le_mul_left _ this
  omega

end Verif.Props.ObjMem

namespace Verif.Props
open Verif.Tool.Expr Verif.Tool.Heap Verif.Tool.ObjectsMemory Verif.Props.ObjMem

/-- C74: a load that is accepted returns what the machine's memory contains, and it is of bytes within one object, or of an
address that is the same under all assignments. Missing: the decomposition of the address has to be exact, see
`C74_wrong_element`; and addresses in which no object occurs may be any, of no object or, against `Outside`, of one, see `C74_constant_accepted`. -/
theorem C74_load_partial {K : Claripy} {fuel : Nat} {minus : Exp → Nat → Exp} {C : Asg → Prop} {s : State} {addr : Exp} {n : Nat} {v : Asg → Bits}
    {ρ : Asg} {mem : Nat → Bool} (hset : Setting K minus C s addr) (hp : Placed ρ s) (hm : Represents ρ s mem) (hρ : C ρ) (hn : 0 < n)
    (hex : Exact K fuel minus C s addr ρ) (hout : Outside K fuel minus C s addr n ρ) (h : load K fuel minus C s addr n false = some v) :
    v ρ = bitsAt mem (eval ρ addr) n ∧ ((∃ o ∈ s.objs, Within o ρ (eval ρ addr) n) ∨ ∀ ρ', C ρ' → eval ρ' addr = eval ρ addr) := by
  classical
  simp only [load, Option.bind_eq_bind, Option.bind_eq_some_iff] at h
  obtain ⟨a, ha, l, hl, h⟩ := h
  cases l with
  | none =>
    simp only [Option.bind_eq_some_iff, Option.some.injEq] at h
    obtain ⟨p, hpv, rfl⟩ := h
    have hone := (evalOne_spec hpv).2
    have hfree := hout a ha hl
    refine ⟨?_, .inr fun ρ' h' => by rw [hone ρ' h', hone ρ hρ]⟩
    have hpe := hone ρ hρ
    show (maybeRev false (bitsAt (s.flat ρ) p n)).getD [] = _
    simp only [maybeRev, Bool.false_eq_true, if_false, Option.getD_some]
    rw [← hpe]
    refine bits_ext (by simp [bitsAt_length]) fun j hj => ?_
    rw [bitsAt_length] at hj
    rw [bitsAt_get _ _ _ hj, bitsAt_get _ _ _ hj]
    have := hm.flat (eval ρ addr + j / 8) (hfree _ (by omega) (by omega)) (j % 8) (by omega)
    rw [show 8 * (eval ρ addr + j / 8) + j % 8 = 8 * eval ρ addr + j by omega] at this
    exact this
  | some r =>
    simp only [Option.bind_eq_some_iff] at h
    obtain ⟨o, hfo, h⟩ := h
    have hob : o.base = r.base := by simpa using List.find?_some hfo
    have hmem := List.mem_of_find?_eq_some hfo
    have hb := lookup_some hl
    obtain ⟨hk, hoff⟩ := target hp hset.sizes hb hmem hob hρ
    have hok := hp.ok o hmem
    unfold readObj at h
    split at h
    swap
    · cases h
    rename_i hall
    simp only [Option.some.injEq] at h
    obtain ⟨w, hw⟩ := Option.isSome_iff_exists.mp (hall ρ hρ)
    have hin : r.index ρ * (o.obj ρ).width + 8 * r.offset + 8 * n ≤ (o.obj ρ).count * (o.obj ρ).width := by
      unfold Verif.Tool.Heap.read at hw
      split at hw
      · cases hw
      · rename_i res hres
        have := readLoop_inside hok.sized hok.read (count_lt hok) _ hres (by simp; omega)
        simp only [List.length_nil] at this
        omega
    obtain ⟨hwi, h8⟩ := place hok hn hin
    have hsum := hex a r o.size ha hb hk
    rw [← hob] at hsum
    rw [hsum] at hwi h8
    refine ⟨?_, .inl ⟨o, hmem, hwi⟩⟩
    have hle : (o.obj ρ).count * (o.obj ρ).width ≤ 2 ^ 64 * (o.obj ρ).width := Nat.mul_le_mul_right _ (Nat.le_of_lt (count_lt hok))
    obtain ⟨g1, g2⟩ := C30_read hok.sized (by omega) hw
    rw [← h]
    simp only [hw, Option.getD_some]
    refine bits_ext (by rw [g1, bitsAt_length]; omega) fun j hj => ?_
    rw [g1] at hj
    rw [g2 j hj, bitsAt_get _ _ _ (by omega), h8]
    have e2 : (o.obj ρ).count * (o.obj ρ).width = 8 * bytes o ρ := by rw [hok.width]; unfold bytes; ring
    rw [hm.objs o hmem _ (by omega)]
    congr 1
    omega

end Verif.Props

namespace Verif.Props.ObjMem
open Verif.Tool.Expr Verif.Tool.Heap Verif.Tool.ObjectsMemory

/-- What does not change about an object. -/
def Special.shape (ρ : Asg) (o : Special) : Exp × Size × Nat × Bool := (o.base, o.size, (o.obj ρ).count, (o.obj ρ).fractions.isSome)

/-- What does not change about the memory. -/
def shape (ρ : Asg) (s : State) : List (Exp × Size × Nat × Bool) := s.objs.map (Special.shape ρ)

theorem within_shape {ρ : Asg} {o o' : Special} (h : Special.shape ρ o = Special.shape ρ o') (a n : Nat) : Within o ρ a n ↔ Within o' ρ a n := by
  simp only [Special.shape, Prod.mk.injEq] at h
  unfold Within bytes
  rw [h.1, h.2.1, h.2.2.1]

theorem shape_mem {ρ : Asg} {s s' : State} (h : shape ρ s = shape ρ s') {o : Special} (ho : o ∈ s.objs) : ∃ o' ∈ s'.objs, Special.shape ρ o' = Special.shape ρ o := by
  have : Special.shape ρ o ∈ shape ρ s' := by rw [← h]; exact List.mem_map_of_mem ho
  obtain ⟨o', h1, h2⟩ := List.mem_map.mp this
  exact ⟨o', h1, h2⟩

theorem shape_free {ρ : Asg} {s s' : State} (h : shape ρ s = shape ρ s') {a : Nat} (hf : Free s ρ a) : Free s' ρ a := by
  refine ⟨hf.1, fun o ho hw => ?_⟩
  obtain ⟨o', h1, h2⟩ := shape_mem h.symm ho
  exact hf.2 o' h1 ((within_shape h2 a 1).mpr hw)

theorem shape_keys {ρ : Asg} {s s' : State} (h : shape ρ s = shape ρ s') : s.keys = s'.keys := by
  have := congrArg (List.map fun x : Exp × Size × Nat × Bool => (x.1, x.2.1)) h
  simpa [shape, State.keys, Special.shape, Function.comp_def] using this

theorem shape_bounded {ρ : Asg} {s s' : State} (h : shape ρ s = shape ρ s') {K : Claripy} {fuel : Nat} {minus : Exp → Nat → Exp} {C : Asg → Prop} {addr : Exp} {n : Nat}
    (hb : Bounded K fuel minus C s addr n ρ) : Bounded K fuel minus C s' addr n ρ := by
  intro a r ha hr o ho hob hf
  obtain ⟨o', h1, h2⟩ := shape_mem h.symm ho
  rw [← shape_keys h] at hr
  have hsh := h2
  simp only [Special.shape, Prod.mk.injEq] at hsh
  have := hb a r ha hr o' h1 (by rw [hsh.1, hob]) (by rw [hf] at hsh; simpa using hsh.2.2.2)
  unfold bytes at this ⊢
  rw [hsh.2.1, hsh.2.2.1] at this
  exact this

theorem setBits_get (mem : Nat → Bool) (a : Nat) (v : Bits) (i : Nat) :
    setBits mem a v i = if 8 * a ≤ i ∧ i < 8 * a + v.length then v.getD (i - 8 * a) false else mem i := rfl

/-- Replacing an object by what a store makes of it. -/
theorem replaced {ρ : Asg} {s : State} {mem : Nat → Bool} (hp : Placed ρ s) (hm : Represents ρ s mem) {o o' : Special} (ho : o ∈ s.objs)
    (hsh : Special.shape ρ o' = Special.shape ρ o) (hok : ObjOk ρ o') {p n : Nat} {v : Bits} (hv : v.length = 8 * n) (hwi : Within o ρ p n)
    (hbits : ∀ i < 8 * bytes o ρ, (o'.obj ρ).bit i = setBits mem p v (8 * eval ρ o.base + i)) (f : Special → Special)
    (hf1 : ∀ x ∈ s.objs, x.base = o.base → f x = o') (hf2 : ∀ x ∈ s.objs, x.base ≠ o.base → f x = x) :
    let s' : State := { s with objs := s.objs.map f }
    shape ρ s' = shape ρ s ∧ Placed ρ s' ∧ Represents ρ s' (setBits mem p v) := by
  intro s'
  have hfo : ∀ x ∈ s.objs, x.base = o.base → x = o := fun x hx he => List.inj_on_of_nodup_map hp.bases hx ho he
  have hcase : ∀ x ∈ s.objs, x = o ∧ f x = o' ∨ x.base ≠ o.base ∧ f x = x := by
    intro x hx
    by_cases he : x.base = o.base
    · exact .inl ⟨hfo x hx he, hf1 x hx he⟩
    · exact .inr ⟨he, hf2 x hx he⟩
  have hshape : ∀ x ∈ s.objs, Special.shape ρ (f x) = Special.shape ρ x := by
    intro x hx
    rcases hcase x hx with ⟨rfl, h⟩ | ⟨-, h⟩ <;> rw [h]
    exact hsh
  have hshapes : shape ρ s' = shape ρ s := by
    show (s.objs.map f).map _ = s.objs.map _
    rw [List.map_map]
    exact List.map_congr_left hshape
  have hbase : o'.base = o.base := by
    have := hsh; simp only [Special.shape, Prod.mk.injEq] at this; exact this.1
  have hfb : ∀ x ∈ s.objs, (f x).base = x.base := by
    intro x hx
    have := hshape x hx; simp only [Special.shape, Prod.mk.injEq] at this; exact this.1
  refine ⟨hshapes, ⟨?_, ?_, ?_⟩, ?_, ?_⟩
  · intro x hx
    obtain ⟨y, hy, rfl⟩ := List.mem_map.mp hx
    rcases hcase y hy with ⟨rfl, h⟩ | ⟨-, h⟩ <;> rw [h]
    · exact hok
    · exact hp.ok y hy
  · show ((s.objs.map f).map Special.base).Nodup
    rw [List.map_map, show s.objs.map (Special.base ∘ f) = s.objs.map Special.base from List.map_congr_left hfb]
    exact hp.bases
  · intro x hx y hy hne a hw
    obtain ⟨x, hx', rfl⟩ := List.mem_map.mp hx
    obtain ⟨y, hy', rfl⟩ := List.mem_map.mp hy
    rw [hfb x hx', hfb y hy'] at hne
    exact hp.apart x hx' y hy' hne a ⟨(within_shape (hshape x hx') a 1).mp hw.1, (within_shape (hshape y hy') a 1).mp hw.2⟩
  · intro x hx i hi
    obtain ⟨y, hy, rfl⟩ := List.mem_map.mp hx
    rcases hcase y hy with ⟨rfl, h⟩ | ⟨hne, h⟩ <;> rw [h] at hi ⊢
    · have hbe : bytes o' ρ = bytes y ρ := by
        have := hsh; simp only [Special.shape, Prod.mk.injEq] at this
        unfold bytes; rw [this.2.1, this.2.2.1]
      rw [hbase]
      exact hbits i (by omega)
    · rw [hm.objs y hy i hi, setBits_get, if_neg]
      rintro ⟨h1, h2⟩
      have hw1 : Within y ρ (eval ρ y.base + i / 8) 1 := ⟨by omega, by omega⟩
      have hw2 : Within o ρ (eval ρ y.base + i / 8) 1 := by
        have := hwi.1; have := hwi.2
        exact ⟨by omega, by omega⟩
      exact hp.apart y hy o ho hne _ ⟨hw1, hw2⟩
  · intro a ha i hi
    have ha' := shape_free hshapes ha
    show s.flat ρ _ = _
    rw [hm.flat a ha' i hi, setBits_get, if_neg]
    rintro ⟨h1, h2⟩
    refine ha'.2 o ho ?_
    have := hwi.1; have := hwi.2
    exact ⟨by omega, by omega⟩

end Verif.Props.ObjMem

namespace Verif.Props
open Verif.Tool.Expr Verif.Tool.Heap Verif.Tool.ObjectsMemory Verif.Props.ObjMem

/-- C74: after a store that is accepted, the state describes the machine's memory after it; and it is to bytes within one object, or to an
address that is the same under all assignments. Missing: as for `C74_load_partial`;
and a store to an object whose elements are not owned, such as the packet, has to be within it, see `C74_packet_overrun`. -/
theorem C74_store_partial {K : Claripy} {fuel : Nat} {minus : Exp → Nat → Exp} {C : Asg → Prop} {s s' : State} {addr : Exp} {n : Nat} {v : Asg → Bits}
    {ρ : Asg} {mem : Nat → Bool} (hset : Setting K minus C s addr) (hp : Placed ρ s) (hm : Represents ρ s mem) (hρ : C ρ) (hn : 0 < n) (hv : (v ρ).length = 8 * n)
    (hex : Exact K fuel minus C s addr ρ) (hout : Outside K fuel minus C s addr n ρ) (hbd : Bounded K fuel minus C s addr n ρ)
    (h : store K fuel minus C s addr v false = some s') :
    (shape ρ s' = shape ρ s ∧ Placed ρ s' ∧ Represents ρ s' (setBits mem (eval ρ addr) (v ρ))) ∧
    ((∃ o ∈ s.objs, Within o ρ (eval ρ addr) n) ∨ ∀ ρ', C ρ' → eval ρ' addr = eval ρ addr) := by
  classical
  simp only [store, Option.bind_eq_bind, Option.bind_eq_some_iff] at h
  obtain ⟨a, ha, l, hl, h⟩ := h
  cases l with
  | none =>
    simp only [Option.bind_eq_some_iff, Option.some.injEq] at h
    obtain ⟨p, hpv, rfl⟩ := h
    have hone := (evalOne_spec hpv).2
    have hpe := hone ρ hρ
    have hfree := hout a ha hl
    refine ⟨⟨rfl, ⟨hp.ok, hp.bases, hp.apart⟩, ?_, ?_⟩, .inr fun ρ' h' => by rw [hone ρ' h', hpe]⟩
    · intro o ho i hi
      rw [hm.objs o ho i hi, setBits_get, if_neg]
      rintro ⟨h1, h2⟩
      refine (hfree (eval ρ o.base + i / 8) (by omega) (by omega)).2 o ho ⟨by omega, by omega⟩
    · intro b hb i hi
      show setBits (s.flat ρ) p ((maybeRev false (v ρ)).getD []) _ = _
      simp only [maybeRev, Bool.false_eq_true, if_false, Option.getD_some]
      rw [← hpe, setBits_get, setBits_get, hm.flat b hb i hi]
  | some r =>
    simp only [Option.bind_eq_some_iff, Option.some.injEq] at h
    obtain ⟨o, hfo, o', hw', rfl⟩ := h
    have hob : o.base = r.base := by simpa using List.find?_some hfo
    have hmem := List.mem_of_find?_eq_some hfo
    have hb := lookup_some hl
    obtain ⟨hk, hoff⟩ := target hp hset.sizes hb hmem hob hρ
    have hok := hp.ok o hmem
    unfold writeObj at hw'
    split at hw'
    swap
    · cases hw'
    rename_i hall
    simp only [Option.some.injEq] at hw'
    obtain ⟨w, hw⟩ := Option.isSome_iff_exists.mp (hall ρ hρ)
    have hobj : o'.obj ρ = w := by rw [← hw']; simp [hw]
    have hne : v ρ ≠ [] := by intro he; rw [he] at hv; simp at hv; omega
    have hoff8 : 8 * r.offset < (o.obj ρ).width := by rw [hok.width]; omega
    have e2 : (o.obj ρ).count * (o.obj ρ).width = 8 * bytes o ρ := by rw [hok.width]; unfold bytes; ring
    have e1 : r.index ρ * (o.obj ρ).width = 8 * (r.index ρ * o.size.val ρ) := by rw [hok.width]; ring
    have hin : r.index ρ * (o.obj ρ).width + 8 * r.offset + 8 * n ≤ (o.obj ρ).count * (o.obj ρ).width := by
      by_cases hfr : (o.obj ρ).fractions = none
      · have := hbd a r ha hb o hmem hob hfr
        omega
      · have := writeLoop_inside _ hok.sized (hok.write hfr) (count_lt hok) hoff8 hw hne
        omega
    obtain ⟨hwi, h8⟩ := place hok hn hin
    have hsum := hex a r o.size ha hb hk
    rw [← hob] at hsum
    rw [hsum] at hwi h8
    have hle : (o.obj ρ).count * (o.obj ρ).width ≤ 2 ^ 64 * (o.obj ρ).width := Nat.mul_le_mul_right _ (Nat.le_of_lt (count_lt hok))
    rcases writeLoop_written _ hok.sized hoff8 (Nat.le_refl _) (by omega) hw with ⟨h1, -⟩ | hW
    · exact absurd h1 hne
    have hpres := writeLoop_present _ hok.sized hoff8 (by omega) hw
    have hbs : o'.base = o.base ∧ o'.size = o.size := by rw [← hw']; exact ⟨rfl, rfl⟩
    have hshape : Special.shape ρ o' = Special.shape ρ o := by
      simp only [Special.shape, hbs, hobj, hW.count, hW.fractions]
    have hbytes : bytes o' ρ = bytes o ρ := by unfold bytes; rw [hobj, hW.count, hbs.2]
    have hok' : ObjOk ρ o' := by
      refine ⟨by rw [hobj]; exact hW.sized, by rw [hobj, hW.width, hbs.2]; exact hok.width, ?_, ?_, by rw [hbytes, hbs.1]; exact hok.fits⟩
      · rw [hobj]
        intro k hk
        rw [hW.count]
        unfold Obj.canRead at hk
        rw [hW.fractions] at hk
        cases hfr : (o.obj ρ).fractions with
        | some f =>
          apply hok.read
          unfold Obj.canRead
          simpa [hfr] using hk
        | none =>
          simp only [hfr] at hk
          rcases hpres k hk with h1 | h1
          · apply hok.read
            unfold Obj.canRead
            simpa [hfr] using h1
          · have : k * (o.obj ρ).width < (o.obj ρ).count * (o.obj ρ).width := by omega
            exact Nat.lt_of_mul_lt_mul_right this
      · rw [hobj, hW.fractions, hW.count]
        intro hfr k hk
        apply hok.write hfr
        unfold Obj.canWrite at hk ⊢
        rw [hW.fractions] at hk
        exact hk
    have hrep := replaced hp hm hmem hshape hok' hv hwi (f := fun x => if x.base = r.base then o' else x) (by
        intro i hi
        rw [hobj, hW.bits i, setBits_get, hm.objs o hmem i hi, h8]
        by_cases hc : r.index ρ * (o.obj ρ).width + 8 * r.offset ≤ i ∧ i < r.index ρ * (o.obj ρ).width + 8 * r.offset + (v ρ).length
        · rw [if_pos hc, if_pos (by omega)]; congr 1; omega
        · rw [if_neg hc, if_neg (by omega)])
      (fun x _ hx => if_pos (by rw [hx, hob])) (fun x _ hx => if_neg (by rw [← hob]; exact hx))
    exact ⟨hrep, .inl ⟨o, hmem, hwi⟩⟩

end Verif.Props

namespace Verif.Props.ObjMem
open Verif.Tool.Expr Verif.Tool.Heap Verif.Tool.ObjectsMemory

/-- The machine: the values that the accesses load under an assignment, and its memory afterwards. -/
def machine (ρ : Asg) : (Nat → Bool) → List Access → List Bits × (Nat → Bool)
  | mem, [] => ([], mem)
  | mem, .load _ addr n :: rest => (bitsAt mem (eval ρ addr) n :: (machine ρ mem rest).1, (machine ρ mem rest).2)
  | mem, .store _ addr v :: rest => machine ρ (setBits mem (eval ρ addr) (v ρ)) rest

/-- What is assumed of an access: its path is the one of the assignment, and the hypotheses of the theorems about one access. -/
def AccessOk (K : Claripy) (fuel : Nat) (minus : Exp → Nat → Exp) (s : State) (ρ : Asg) : Access → Prop
  | .load C addr n => C ρ ∧ Setting K minus C s addr ∧ Exact K fuel minus C s addr ρ ∧ 0 < n ∧ Outside K fuel minus C s addr n ρ
  | .store C addr v => C ρ ∧ Setting K minus C s addr ∧ Exact K fuel minus C s addr ρ ∧
    ∃ n, 0 < n ∧ (v ρ).length = 8 * n ∧ Outside K fuel minus C s addr n ρ ∧ Bounded K fuel minus C s addr n ρ

theorem setting_keys {K : Claripy} {minus : Exp → Nat → Exp} {C : Asg → Prop} {s s' : State} {addr : Exp} (h : s.keys = s'.keys) (hs : Setting K minus C s addr) : Setting K minus C s' addr :=
  ⟨hs.claripy, hs.minus, h ▸ hs.sizes, hs.wf, hs.width⟩

theorem shape_accessOk {ρ : Asg} {s s' : State} (h : shape ρ s = shape ρ s') {K : Claripy} {fuel : Nat} {minus : Exp → Nat → Exp} {a : Access}
    (ha : AccessOk K fuel minus s ρ a) : AccessOk K fuel minus s' ρ a := by
  have hk := shape_keys h
  have hE : ∀ {C : Asg → Prop} {addr : Exp}, Exact K fuel minus C s addr ρ → Exact K fuel minus C s' addr ρ := by
    intro C addr hE a r size
    rw [← hk]
    exact hE a r size
  have hO : ∀ {C : Asg → Prop} {addr : Exp} {n : Nat}, Outside K fuel minus C s addr n ρ → Outside K fuel minus C s' addr n ρ := by
    intro C addr n hO a h1 h2 b h3 h4
    rw [← hk] at h2
    exact shape_free h (hO a h1 h2 b h3 h4)
  cases a with
  | load C addr n =>
    obtain ⟨h1, h2, h3, h4, h5⟩ := ha
    exact ⟨h1, setting_keys hk h2, hE h3, h4, hO h5⟩
  | store C addr v =>
    obtain ⟨h1, h2, h3, n, h4, h5, h6, h7⟩ := ha
    exact ⟨h1, setting_keys hk h2, hE h3, n, h4, h5, hO h6, shape_bounded h h7⟩

end Verif.Props.ObjMem

namespace Verif.Props
open Verif.Tool.Expr Verif.Tool.Heap Verif.Tool.ObjectsMemory Verif.Props.ObjMem

/-- C74: under an assignment of the symbols, any sequence of accesses that is accepted loads the values that the machine loads, and leaves the
state to describe the machine's memory. Missing: as for `C74_load_partial` and `C74_store_partial`. -/
theorem C74_accesses_partial {K : Claripy} {fuel : Nat} {minus : Exp → Nat → Exp} {ρ : Asg} (as : List Access) :
    ∀ {s s' : State} {mem : Nat → Bool} {vs : List (Asg → Bits)}, Placed ρ s → Represents ρ s mem → (∀ a ∈ as, AccessOk K fuel minus s ρ a) →
    accesses K fuel minus s as = some (s', vs) → vs.map (fun v => v ρ) = (machine ρ mem as).1 ∧ Placed ρ s' ∧ Represents ρ s' (machine ρ mem as).2 := by
  induction as with
  | nil =>
    intro s s' mem vs hp hm _ h
    simp only [accesses, Option.some.injEq, Prod.mk.injEq] at h
    obtain ⟨rfl, rfl⟩ := h
    exact ⟨rfl, hp, hm⟩
  | cons a as ih =>
    intro s s' mem vs hp hm hok h
    have hrest := fun b hb => hok b (List.mem_cons_of_mem _ hb)
    have ha := hok a (List.mem_cons_self ..)
    cases a with
    | load C addr n =>
      obtain ⟨h1, h2, h3, h4, h5⟩ := ha
      simp only [accesses, Option.bind_eq_bind, Option.bind_eq_some_iff, Option.some.injEq, Prod.mk.injEq] at h
      obtain ⟨v, hv, ⟨s1, vs1⟩, hr, rfl, rfl⟩ := h
      obtain ⟨g1, g2⟩ := ih hp hm hrest hr
      refine ⟨?_, g2⟩
      rw [List.map_cons, g1, (C74_load_partial h2 hp hm h1 h4 h3 h5 hv).1]
      rfl
    | store C addr v =>
      obtain ⟨h1, h2, h3, n, h4, h5, h6, h7⟩ := ha
      simp only [accesses, Option.bind_eq_bind, Option.bind_eq_some_iff] at h
      obtain ⟨s1, hs1, hr⟩ := h
      obtain ⟨⟨g1, g2, g3⟩, -⟩ := C74_store_partial h2 hp hm h1 h4 h5 h3 h6 h7 hs1
      exact ih g2 g3 (fun b hb => shape_accessOk g1.symm (hrest b hb)) hr

end Verif.Props

namespace Verif.Props
open Verif.Tool.Expr Verif.Tool.Heap Verif.Tool.ObjectsMemory Verif.Props.ObjMem

/-- C74: the decomposition is exact for objects of bytes, such as the data of the packet, and for other objects if the terms of the
address are (`TermExact`, see C13). -/
theorem C74_exact {K : Claripy} {fuel : Nat} {minus : Exp → Nat → Exp} {C : Asg → Prop} {s : State} {addr : Exp} {ρ : Asg} (hset : Setting K minus C s addr)
    (hbases : (s.objs.map Special.base).Nodup) (hρ : C ρ)
    (h : ∀ a r size, simplify K C fuel addr [] = some a → baseIndexOffset C minus s.keys a = some r → (r.base, size) ∈ s.keys →
      size.const = some 1 ∨ ∀ d, asMultAddOuter C (minus (added a r.base) r.offset) = some d → ∀ em ∈ d, TermExact size ρ em) :
    Exact K fuel minus C s addr ρ := by
  intro a r size ha hr hk
  obtain ⟨hwf, hwd, hev⟩ := (simplify_both hset.claripy fuel).1 addr [] a ha hset.wf
  have huniq : ∀ size', (r.base, size') ∈ s.keys → size' = size := by
    intro size' hk'
    obtain ⟨o1, h1, e1⟩ := List.mem_map.mp hk
    obtain ⟨o2, h2, e2⟩ := List.mem_map.mp hk'
    simp only [Prod.mk.injEq] at e1 e2
    have : o1 = o2 := List.inj_on_of_nodup_map hbases h1 h2 (by rw [e1.1, e2.1])
    rw [← e1.2, ← e2.2, this]
  rw [← hev ρ hρ (by simp [holds])]
  rcases h a r size ha hr hk with h1 | hd
  · have := C13_sums_back_bytes C minus hset.minus s.keys a hwf (by rw [hwd, hset.width]) r (by
      intro k hk2
      refine ⟨hset.sizes k hk2, fun he => ?_⟩
      rw [huniq k.2 (by rw [← he]; exact hk2)]
      exact h1) hr ρ hρ
    rw [((hset.sizes _ hk) ρ hρ).2.2 1 h1, Nat.mul_one]
    exact this
  · obtain ⟨size', hk', hs⟩ := C13_sums_back_partial C minus hset.minus s.keys a hwf (by rw [hwd, hset.width]) r hset.sizes hr
    have := huniq size' hk'
    subst this
    exact hs ρ hρ hd

/-- C74 is false of the code: whatever the objects, loads from and stores to every constant address are accepted, in particular null pointers
and addresses at which the program has nothing. -/
theorem C74_constant_accepted {K : Claripy} {fuel : Nat} {minus : Exp → Nat → Exp} {C : Asg → Prop} {s : State} {p : Nat} (hC : ∃ ρ, C ρ)
    (hK : simplify K C fuel (.bvv 64 p) [] = some (.bvv 64 p)) (hs : ∀ o ∈ s.objs, o.base ≠ .bvv 64 p) (n : Nat) (v : Asg → Bits) :
    (∃ r, load K fuel minus C s (.bvv 64 p) n false = some r) ∧ ∃ s', store K fuel minus C s (.bvv 64 p) v false = some s' := by
  classical
  have hl : lookup C minus s.keys (.bvv 64 p) = some none := by
    unfold lookup
    dsimp only
    rw [if_neg]
    simp only [State.keys, List.any_map, List.any_eq_true, not_exists, not_and, Function.comp_apply, decide_eq_true_eq]
    exact fun o ho => hs o ho
  have he : evalOne C (fun ρ => eval ρ (.bvv 64 p)) = some (p % 2 ^ 64) := evalOne_of hC fun ρ _ => rfl
  constructor
  · simp [load, hK, hl, he]
  · simp [store, hK, hl, he]

/-- C74, the other memory (objects.py:14-15, 22-23): an address that has one value, and that after simplification neither is the base of an object
nor a sum with one, is accepted; a store there leaves all objects as they are, and a load afterwards from the same address returns what was stored.
This is how the program uses its stack. -/
theorem C74_other_memory {K : Claripy} {fuel : Nat} {minus : Exp → Nat → Exp} {C : Asg → Prop} {s : State} {addr a : Exp} {p : Nat} (hC : ∃ ρ, C ρ)
    (hp : ∀ ρ, C ρ → eval ρ addr = p) (ha : simplify K C fuel addr [] = some a) (hs : ∀ o ∈ s.objs, o.base ≠ a ∧ ∀ args, a = .add args → o.base ∉ args)
    (n : Nat) (v : Asg → Bits) :
    (∃ r, load K fuel minus C s addr n false = some r) ∧ ∃ s', store K fuel minus C s addr v false = some s' ∧ s'.objs = s.objs ∧
      ∀ n, (∀ ρ, (v ρ).length = 8 * n) → load K fuel minus C s' addr n false = some v := by
  classical
  have hl : lookup C minus s.keys a = some none := by
    unfold lookup
    split
    · rename_i args
      have : matching s.keys args = [] := by
        rw [matching, List.flatMap_eq_nil_iff]
        intro x hx
        rw [List.filter_eq_nil_iff]
        intro k hk
        obtain ⟨o, ho, rfl⟩ := List.mem_map.mp hk
        simp only [decide_eq_true_eq]
        rintro rfl
        exact (hs o ho).2 args rfl hx
      rw [this]
    · rw [if_neg]
      simp only [State.keys, List.any_map, List.any_eq_true, not_exists, not_and, Function.comp_apply, decide_eq_true_eq]
      exact fun o ho => (hs o ho).1
  have he : evalOne C (fun ρ => eval ρ addr) = some p := evalOne_of hC hp
  refine ⟨by simp [load, ha, hl, he], { s with flat := fun ρ => setBits (s.flat ρ) p ((maybeRev false (v ρ)).getD []) },
    by simp [store, ha, hl, he], rfl, fun n hn => ?_⟩
  have hk : State.keys { s with flat := fun ρ => setBits (s.flat ρ) p ((maybeRev false (v ρ)).getD []) } = s.keys := rfl
  simp only [load, ha, hl, he, hk, Option.bind_eq_bind, Option.bind_some, Option.some.injEq]
  funext ρ
  simp only [maybeRev, Bool.false_eq_true, if_false, Option.getD_some]
  refine bits_ext (by rw [bitsAt_length, hn]) fun j hj => ?_
  rw [bitsAt_length] at hj
  rw [bitsAt_get _ _ _ hj, setBits_get, if_pos ⟨by omega, by rw [hn]; omega⟩]
  congr 1
  omega

end Verif.Props

namespace Verif.Props.ObjMem
open Verif.Tool.Expr Verif.Tool.Heap Verif.Tool.ObjectsMemory

/-! ### Concrete cases -/

/-- Operations of which addition makes one sum, without a zero in front. -/
def flatClaripy : Claripy := ⟨fun e => e, fun e => e, fun e => e, .ite, fun a b => match a with
  | .bvv _ 0 => b
  | .add args => .add (args ++ [b])
  | a => .add [a, b]⟩

theorem widthHead_append {args : List Exp} (h : args ≠ []) (l : List Exp) : widthHead (args ++ l) = widthHead args := by
  cases args with
  | nil => exact absurd rfl h
  | cons x xs => rfl

theorem flatClaripy_ok (C : Asg → Prop) : ClaripyOK C flatClaripy where
  excavate e h := ⟨h, rfl, fun _ => rfl⟩
  burrow e h := ⟨h, rfl, fun _ => rfl⟩
  simp e h := ⟨h, rfl, fun _ _ => rfl⟩
  mkIf c a b ha hb hab := ⟨⟨ha, hb, hab⟩, rfl, fun _ => rfl⟩
  mkAdd a b ha hb hab := by
    have hlt := fun ρ => eval_lt ρ b hb
    unfold flatClaripy
    dsimp only
    split
    · refine ⟨hb, hab.symm, fun ρ => ?_⟩
      have := hlt ρ
      rw [← hab] at this
      simp only [eval, Nat.zero_mod, Nat.zero_add]
      exact (Nat.mod_eq_of_lt this).symm
    · rename_i args
      have hne : args ≠ [] := ha.1
      have hw := widthHead_append hne [b]
      change widthHead args = width b at hab
      refine ⟨⟨by simp, ?_⟩, ?_, fun ρ => ?_⟩
      · rw [wfAll_iff, hw]
        intro e he
        rcases List.mem_append.mp he with he | he
        · exact (wfAll_iff _ _).mp ha.2 e he
        · simp only [List.mem_singleton] at he; subst he; exact ⟨hb, hab.symm⟩
      · show widthHead _ = widthHead _; exact hw
      · simp only [eval, hw, width, evalList_map, List.map_append, List.sum_append, List.map_cons, List.map_nil, List.sum_cons, List.sum_nil, Nat.add_zero]
        rw [Nat.mod_add_mod]
    · exact ⟨⟨by simp, ha, rfl, hb, hab.symm, trivial⟩, rfl, fun ρ => by simp [eval, evalList, widthHead]⟩

theorem lookup_of {C : Asg → Prop} {minus : Exp → Nat → Exp} {keys : List (Exp × Size)} {addr : Exp} {r : Bio}
    (h : baseIndexOffset C minus keys addr = some r) : lookup C minus keys addr = some (some r) := by
  unfold baseIndexOffset at h
  unfold lookup
  split at h
  · split at h
    · rename_i hm
      simp [hm, h]
    · cases h
  · rename_i hne
    split at h
    · rename_i hk
      simp only [Option.some.injEq] at h
      simp [hk, h]
    · cases h

theorem outside_of {K : Claripy} {fuel : Nat} {minus : Exp → Nat → Exp} {C : Asg → Prop} {s : State} {addr a : Exp} {r : Bio} {n : Nat} {ρ : Asg}
    (ha : simplify K C fuel addr [] = some a) (h : baseIndexOffset C minus s.keys a = some r) : Outside K fuel minus C s addr n ρ := by
  intro a' ha' hl
  rw [ha] at ha'
  cases ha'
  rw [lookup_of h] at hl
  simp at hl

/-- Four elements of four bytes; the one at index 2 consists of ones. -/
def four : Obj := ⟨4, 32, fun k => (List.replicate 32 (k == 2), decide (k < 4)), some fun k => (100, decide (k < 4))⟩

/-- The object is at symbol 0. -/
def fourState : State := ⟨[⟨.bvs 64 0, sampleSize 4, fun _ => four⟩], fun _ _ => false⟩

/-- Symbol 1 is one. -/
def isOne : Asg → Prop := fun ρ => ρ.bv 1 = 1

/-- The object is at 4096. -/
def at4096 : Asg := ⟨fun n => if n = 0 then 4096 else n, fun _ => false, fun _ _ => 0⟩

def fourMem : Nat → Bool := fun i => if 8 * 4096 ≤ i ∧ i < 8 * 4096 + 128 then four.bit (i - 8 * 4096) else false

theorem at4096_base : eval at4096 (.bvs 64 0) = 4096 := by decide

theorem four_placed : Placed at4096 fourState := by
  refine ⟨?_, by simp [fourState], ?_⟩
  · intro o ho
    simp only [fourState, List.mem_singleton] at ho
    subst ho
    refine ⟨⟨by decide, fun k => by simp [four]⟩, rfl, fun k hk => ?_, fun _ k hk => ?_, by decide⟩
    · simpa [Obj.canRead, four] using hk
    · simpa [Obj.canWrite, four] using hk
  · intro o ho o' ho' hne
    simp only [fourState, List.mem_singleton] at ho ho'
    subst ho ho'
    exact absurd rfl hne

theorem four_represents : Represents at4096 fourState fourMem := by
  constructor
  · intro o ho i hi
    simp only [fourState, List.mem_singleton] at ho
    subst ho
    have hi : i < 128 := hi
    dsimp only
    rw [at4096_base, fourMem, if_pos ⟨Nat.le_add_right _ _, Nat.add_lt_add_left hi _⟩, Nat.add_sub_cancel_left]
  · intro a ha i hi
    have := ha.2 ⟨.bvs 64 0, sampleSize 4, fun _ => four⟩ (by simp [fourState])
    have hn : ¬ (eval at4096 (.bvs 64 0) ≤ a ∧ a + 1 ≤ eval at4096 (.bvs 64 0) + 4 * 4) := this
    rw [at4096_base] at hn
    show false = fourMem (8 * a + i)
    rw [fourMem, if_neg (by omega)]

/-- The address base + v * i. -/
def stride (v : Nat) : Exp := .add [.bvs 64 0, .mul [.bvs 64 1, .bvv 64 v]]

theorem stride_simplify (v : Nat) : simplify flatClaripy isOne 3 (stride v) [] = some (stride v) := by
  simp [stride, simplify, simplifyLoop, flatClaripy, forceBurrow, sumFrom]

theorem four_setting (v : Nat) : Setting flatClaripy foldMinus isOne fourState (stride v) := by
  refine ⟨flatClaripy_ok _, foldMinus_ok, ?_, by simp [stride, WF, WFAll, widthHead, width], rfl⟩
  intro k hk
  simp only [fourState, State.keys, List.map_cons, List.map_nil, List.mem_singleton] at hk
  subst hk
  intro ρ _
  exact ⟨(by decide : 0 < 4), (by decide : 4 < 2 ^ 64), fun k hk => by cases hk; rfl⟩

theorem isOne_some : ∃ ρ, isOne ρ := ⟨at4096, rfl⟩

theorem four_index {ρ : Asg} (hρ : isOne ρ) {v : Nat} (h4 : wrap 64 v % 4 = 0) :
    ([(Exp.bvs 64 1, Coef.int v), (.bvv 64 0, .int 1)].map (makeTerm (sampleSize 4) ρ)).sum % 2 ^ 64 = 1 := by
  rw [sample_index 4 v ρ (by decide) h4, hρ]
  rfl

theorem load_object {K : Claripy} {fuel : Nat} {minus : Exp → Nat → Exp} {C : Asg → Prop} {s : State} {addr a : Exp} {r : Bio} {n : Nat} {o : Special} {v : Asg → Bits}
    (ha : simplify K C fuel addr [] = some a) (hb : baseIndexOffset C minus s.keys a = some r) (ho : o ∈ s.objs) (hob : o.base = r.base) (hn : (s.objs.map Special.base).Nodup)
    (hr : ∀ ρ, C ρ → Verif.Tool.Heap.read (o.obj ρ) (r.index ρ) (8 * r.offset) n false = some (v ρ)) :
    ∃ w, load K fuel minus C s addr n false = some w ∧ ∀ ρ, C ρ → w ρ = v ρ := by
  classical
  have hf : s.objs.find? (fun o => decide (o.base = r.base)) = some o := by
    cases hfi : s.objs.find? (fun o => decide (o.base = r.base)) with
    | none => have := List.find?_eq_none.mp hfi o ho; simp [hob] at this
    | some o' =>
      have h1 : o'.base = r.base := by simpa using List.find?_some hfi
      rw [List.inj_on_of_nodup_map hn (List.mem_of_find?_eq_some hfi) ho (by rw [h1, hob])]
  refine ⟨fun ρ => (Verif.Tool.Heap.read (o.obj ρ) (r.index ρ) (8 * r.offset) n false).getD [], ?_, fun ρ hρ => by dsimp only; rw [hr ρ hρ]; rfl⟩
  simp only [load, ha, lookup_of hb, hf, Option.bind_eq_bind, Option.bind_some]
  unfold readObj
  rw [if_pos fun ρ hρ => by rw [hr ρ hρ]; rfl]

theorem store_object {K : Claripy} {fuel : Nat} {minus : Exp → Nat → Exp} {C : Asg → Prop} {s : State} {addr a : Exp} {r : Bio} {o : Special} {v : Asg → Bits} {f : Asg → Obj}
    (ha : simplify K C fuel addr [] = some a) (hb : baseIndexOffset C minus s.keys a = some r) (ho : o ∈ s.objs) (hob : o.base = r.base) (hn : (s.objs.map Special.base).Nodup)
    (hr : ∀ ρ, C ρ → Verif.Tool.Heap.write (o.obj ρ) (r.index ρ) (8 * r.offset) (v ρ) false = some (f ρ)) :
    ∃ s', store K fuel minus C s addr v false = some s' ∧ s'.keys = s.keys ∧ (s'.objs.map Special.base) = s.objs.map Special.base ∧
      (∀ x ∈ s.objs, x.base ≠ o.base → x ∈ s'.objs) ∧ ∃ o' ∈ s'.objs, o'.base = o.base ∧ ∀ ρ, C ρ → o'.obj ρ = f ρ := by
  classical
  have hf : s.objs.find? (fun o => decide (o.base = r.base)) = some o := by
    cases hfi : s.objs.find? (fun o => decide (o.base = r.base)) with
    | none => have := List.find?_eq_none.mp hfi o ho; simp [hob] at this
    | some o' =>
      have h1 : o'.base = r.base := by simpa using List.find?_some hfi
      rw [List.inj_on_of_nodup_map hn (List.mem_of_find?_eq_some hfi) ho (by rw [h1, hob])]
  let o' : Special := { o with obj := fun ρ => (Verif.Tool.Heap.write (o.obj ρ) (r.index ρ) (8 * r.offset) (v ρ) false).getD (o.obj ρ) }
  have hw : writeObj C o r v false = some o' := by
    unfold writeObj
    rw [if_pos fun ρ hρ => by rw [hr ρ hρ]; rfl]
  refine ⟨{ s with objs := s.objs.map fun x => if x.base = r.base then o' else x }, ?_, ?_, ?_, ?_, ?_⟩
  · simp only [store, ha, lookup_of hb, hf, hw, Option.bind_eq_bind, Option.bind_some]
  · show (s.objs.map _).map _ = s.objs.map _
    rw [List.map_map]
    refine List.map_congr_left fun x hx => ?_
    dsimp only [Function.comp_apply]
    split
    · rename_i hxb
      rw [List.inj_on_of_nodup_map hn hx ho (by rw [hxb, hob])]
    · rfl
  · show (s.objs.map _).map _ = s.objs.map _
    rw [List.map_map]
    refine List.map_congr_left fun x hx => ?_
    dsimp only [Function.comp_apply]
    split
    · rename_i hxb
      rw [hxb, ← hob]
    · rfl
  · intro x hx hne
    exact List.mem_map.mpr ⟨x, hx, if_neg (by rw [← hob]; exact hne)⟩
  · refine ⟨o', List.mem_map.mpr ⟨o, ho, if_pos hob⟩, rfl, fun ρ hρ => ?_⟩
    show (Verif.Tool.Heap.write _ _ _ _ _).getD _ = _
    rw [hr ρ hρ]
    rfl

end Verif.Props.ObjMem

namespace Verif.Props
open Verif.Tool.Expr Verif.Tool.Heap Verif.Tool.ObjectsMemory Verif.Props.ObjMem

/-- C74 is false of the code because C13 is: with elements of four bytes, a load at base + 8 * i for i = 1 returns the element at index 1
and not the one at index 2 that the machine loads, although everything but the exactness of the decomposition is given. -/
theorem C74_wrong_element : ∃ (K : Claripy) (fuel : Nat) (minus : Exp → Nat → Exp) (C : Asg → Prop) (s : State) (addr : Exp) (ρ : Asg) (mem : Nat → Bool) (v : Asg → Bits),
    Setting K minus C s addr ∧ Placed ρ s ∧ Represents ρ s mem ∧ C ρ ∧ Outside K fuel minus C s addr 4 ρ ∧ (∃ o ∈ s.objs, Within o ρ (eval ρ addr) 4) ∧
    load K fuel minus C s addr 4 false = some v ∧ v ρ ≠ bitsAt mem (eval ρ addr) 4 := by
  have hb := stride_result isOne isOne_some 8 (by decide) (by decide)
  obtain ⟨w, hw, hv⟩ := load_object (s := fourState) (o := ⟨.bvs 64 0, sampleSize 4, fun _ => four⟩) (v := fun _ => List.replicate 32 false) (n := 4)
    (stride_simplify 8) hb (by simp [fourState]) rfl (by simp [fourState]) fun ρ hρ => by
      dsimp only
      rw [four_index hρ (by decide)]
      rfl
  refine ⟨flatClaripy, 3, foldMinus, isOne, fourState, stride 8, at4096, fourMem, w, four_setting 8, four_placed, four_represents, rfl, outside_of (stride_simplify 8) hb,
    ⟨_, List.mem_singleton_self _, by decide, by decide⟩, hw, ?_⟩
  rw [hv at4096 rfl]
  decide

/-- The address 16 + i, which is 17, is a sum in which the object does not occur. -/
example : (∀ ρ, isOne ρ → eval ρ (.add [.bvs 64 1, .bvv 64 16]) = 17) ∧
    simplify flatClaripy isOne 3 (.add [.bvs 64 1, .bvv 64 16]) [] = some (.add [.bvs 64 1, .bvv 64 16]) ∧
    ∀ o ∈ fourState.objs, o.base ≠ .add [.bvs 64 1, .bvv 64 16] ∧
      ∀ args, Exp.add [.bvs 64 1, .bvv 64 16] = .add args → o.base ∉ args := by
  refine ⟨fun ρ hρ => ?_, by simp [simplify, simplifyLoop, flatClaripy, forceBurrow, sumFrom], ?_⟩
  · have : ρ.bv 1 = 1 := hρ
    simp [eval, evalList, widthHead, width, this]
  · intro o ho
    simp only [fourState, List.mem_singleton] at ho
    subst ho
    refine ⟨by simp, fun args h => ?_⟩
    cases h
    simp

/-- The accesses of the example: element i, then a constant address. -/
def sampleAccesses : List Access :=
  [.store isOne (stride 4) (fun _ => List.replicate 32 true), .load isOne (stride 4) 4, .load isOne (.bvv 64 16) 2]

theorem stride_exact : Exact flatClaripy 3 foldMinus isOne fourState (stride 4) at4096 := by
  refine C74_exact (four_setting 4) (by simp [fourState]) rfl fun a r size ha hr hk => .inr fun d hd em hem => ?_
  rw [stride_simplify] at ha
  cases ha
  have hb : baseIndexOffset isOne foldMinus fourState.keys (stride 4) = _ := stride_result isOne isOne_some 4 (by decide) (by decide)
  rw [hb] at hr
  cases hr
  simp only [fourState, State.keys, List.map_cons, List.map_nil, List.mem_singleton, Prod.mk.injEq, true_and] at hk
  subst hk
  have hadd : foldMinus (added (stride 4) (.bvs 64 0)) 0 = .add [.mul [.bvs 64 1, .bvv 64 4], .bvv 64 0] := by
    have : added (stride 4) (.bvs 64 0) = .add [.mul [.bvs 64 1, .bvv 64 4], .bvv 64 0] := by simp [added, stride]
    rw [this]
    rfl
  simp only at hd
  rw [hadd, sample_outer2 isOne 4 (by decide)] at hd
  cases hd
  simp only [List.mem_cons, List.not_mem_nil, or_false] at hem
  rcases hem with rfl | rfl
  · refine ⟨fun _ => Int.ModEq.refl _, fun h => ?_⟩
    exact absurd h (by decide)
  · refine ⟨fun h => absurd h (by decide), fun _ => ?_⟩
    simp [eval, wrap]

theorem const_simplify (p : Nat) : simplify flatClaripy isOne 3 (.bvv 64 p) [] = some (.bvv 64 p) := by
  simp [simplify, simplifyLoop, flatClaripy, forceBurrow]

theorem sampleAccesses_ok : ∀ a ∈ sampleAccesses, AccessOk flatClaripy 3 foldMinus fourState at4096 a := by
  have hout := fun n => outside_of (n := n) (ρ := at4096) (s := fourState) (stride_simplify 4) (stride_result isOne isOne_some 4 (by decide) (by decide))
  intro a ha
  simp only [sampleAccesses, List.mem_cons, List.not_mem_nil, or_false] at ha
  rcases ha with rfl | rfl | rfl
  · refine ⟨rfl, four_setting 4, stride_exact, 4, by decide, by simp, hout 4, ?_⟩
    intro a r _ _ o ho _ hf
    simp only [fourState, List.mem_singleton] at ho
    subst ho
    cases hf
  · exact ⟨rfl, four_setting 4, stride_exact, by decide, hout 4⟩
  · refine ⟨rfl, ⟨flatClaripy_ok _, foldMinus_ok, (four_setting 4).sizes, trivial, rfl⟩, ?_, by decide, ?_⟩
    · intro a r size ha hr
      rw [const_simplify] at ha
      cases ha
      simp [baseIndexOffset, fourState, State.keys] at hr
    · intro a _ _ b h1 h2
      have e : eval at4096 (.bvv 64 16) = 16 := by decide
      rw [e] at h1 h2
      refine ⟨by omega, fun o ho hw => ?_⟩
      simp only [fourState, List.mem_singleton] at ho
      subst ho
      have hw1 := hw.1
      dsimp only at hw1
      rw [at4096_base] at hw1
      omega

/-- The hypotheses of `C74_accesses_partial` hold of a store to element i, a load of it and a load from a constant address: the value that was stored
is loaded. -/
example : ∃ s' vs, accesses flatClaripy 3 foldMinus fourState sampleAccesses = some (s', vs) ∧ vs.map (fun v => v at4096) = [List.replicate 32 true, List.replicate 16 false] := by
  have hb := stride_result isOne isOne_some 4 (by decide) (by decide)
  obtain ⟨s1, h1, hk, hn, -, o', ho', hob', hobj⟩ := store_object (s := fourState) (o := ⟨.bvs 64 0, sampleSize 4, fun _ => four⟩) (v := fun _ => List.replicate 32 true)
    (f := fun _ => four.setElem 1 (List.replicate 32 true)) (stride_simplify 4) hb (by simp [fourState]) rfl (by simp [fourState]) fun ρ hρ => by
      dsimp only
      rw [four_index hρ (by decide)]
      rfl
  obtain ⟨w, h2, -⟩ := load_object (s := s1) (o := o') (v := fun _ => List.replicate 32 true) (n := 4)
    (stride_simplify 4) (by rw [hk]; exact hb) ho' hob' (by rw [hn]; simp [fourState]) fun ρ hρ => by
      rw [hobj ρ hρ]
      dsimp only
      rw [four_index hρ (by decide)]
      rfl
  obtain ⟨⟨u, h3⟩, -⟩ := C74_constant_accepted (minus := foldMinus) (s := s1) isOne_some (const_simplify 16) (by
    intro o ho
    have := List.mem_map_of_mem (f := Special.base) ho
    rw [hn] at this
    simp only [fourState, List.map_cons, List.map_nil, List.mem_singleton] at this
    rw [this]
    simp) 2 (fun _ => [])
  have hrun : accesses flatClaripy 3 foldMinus fourState sampleAccesses = some (s1, [w, u]) := by
    simp only [accesses, sampleAccesses, h1, h2, h3, Option.bind_eq_bind, Option.bind_some]
  refine ⟨s1, [w, u], hrun, ?_⟩
  rw [(C74_accesses_partial sampleAccesses four_placed four_represents sampleAccesses_ok hrun).1]
  decide

end Verif.Props

namespace Verif.Props.ObjMem
open Verif.Tool.Expr Verif.Tool.Heap Verif.Tool.ObjectsMemory

/-- The data of a packet of one byte, and one byte of another object, both zero. -/
def packetObj : Obj := ⟨1, 8, fun k => (List.replicate 8 false, decide (k < 1)), none⟩
def otherObj : Obj := ⟨1, 8, fun k => (List.replicate 8 false, decide (k < 1)), some fun k => (100, decide (k < 1))⟩

def packetState : State := ⟨[⟨.bvs 64 0, sampleSize 1, fun _ => packetObj⟩, ⟨.bvs 64 1, sampleSize 1, fun _ => otherObj⟩], fun _ _ => false⟩

/-- The other object comes right after the packet. -/
def adjacent : Asg := ⟨fun n => 4096 + n, fun _ => false, fun _ _ => 0⟩

theorem adjacent_base : eval adjacent (.bvs 64 0) = 4096 ∧ eval adjacent (.bvs 64 1) = 4097 := by decide

theorem packet_cases {o : Special} (h : o ∈ packetState.objs) : o = ⟨.bvs 64 0, sampleSize 1, fun _ => packetObj⟩ ∨ o = ⟨.bvs 64 1, sampleSize 1, fun _ => otherObj⟩ := by
  simpa [packetState] using h

theorem packet_within {o : Special} (h : o ∈ packetState.objs) (a : Nat) : Within o adjacent a 1 ↔ (o.base = .bvs 64 0 ∧ a = 4096 ∨ o.base = .bvs 64 1 ∧ a = 4097) := by
  rcases packet_cases h with rfl | rfl
  · have : Within ⟨.bvs 64 0, sampleSize 1, fun _ => packetObj⟩ adjacent a 1 ↔ eval adjacent (.bvs 64 0) ≤ a ∧ a + 1 ≤ eval adjacent (.bvs 64 0) + 1 := Iff.rfl
    rw [this, adjacent_base.1]
    simp
    omega
  · have : Within ⟨.bvs 64 1, sampleSize 1, fun _ => otherObj⟩ adjacent a 1 ↔ eval adjacent (.bvs 64 1) ≤ a ∧ a + 1 ≤ eval adjacent (.bvs 64 1) + 1 := Iff.rfl
    rw [this, adjacent_base.2]
    simp
    omega

theorem packet_placed : Placed adjacent packetState := by
  refine ⟨?_, by simp [packetState], ?_⟩
  · intro o ho
    rcases packet_cases ho with rfl | rfl
    · refine ⟨⟨by decide, fun k => by simp [packetObj]⟩, rfl, fun k hk => ?_, fun h => absurd rfl h, by decide⟩
      simpa [Obj.canRead, packetObj] using hk
    · refine ⟨⟨by decide, fun k => by simp [otherObj]⟩, rfl, fun k hk => ?_, fun _ k hk => ?_, by decide⟩
      · simpa [Obj.canRead, otherObj] using hk
      · simpa [Obj.canWrite, otherObj] using hk
  · intro o ho o' ho' hne a ⟨h1, h2⟩
    rw [packet_within ho] at h1
    rw [packet_within ho'] at h2
    rcases h1 with ⟨e1, h1⟩ | ⟨e1, h1⟩ <;> rcases h2 with ⟨e2, h2⟩ | ⟨e2, h2⟩
    · exact hne (by rw [e1, e2])
    · omega
    · omega
    · exact hne (by rw [e1, e2])

theorem packet_represents : Represents adjacent packetState fun _ => false := by
  refine ⟨fun o ho i hi => ?_, fun _ _ _ _ => rfl⟩
  rcases packet_cases ho with rfl | rfl
  · show (List.replicate 8 false).getD _ false = false
    rw [List.getD_eq_getElem?_getD, List.getElem?_replicate]
    split <;> rfl
  · show (List.replicate 8 false).getD _ false = false
    rw [List.getD_eq_getElem?_getD, List.getElem?_replicate]
    split <;> rfl

def pastEnd : Exp := .add [.bvs 64 0, .bvv 64 1]

theorem pastEnd_result : baseIndexOffset noConstraint foldMinus packetState.keys pastEnd = some ⟨.bvs 64 0, fun ρ => eval ρ (.add [.bvv 64 1]), 0⟩ := by
  have hm : matching packetState.keys [.bvs 64 0, .bvv 64 1] = [(.bvs 64 0, sampleSize 1)] := by
    simp [matching, packetState, State.keys]
  have hd : asMultAddOuter noConstraint (.add [.bvv 64 1, .bvv 64 0]) = some [(.bvv 64 1, .int 1), (.bvv 64 0, .int 1)] := by
    simp [asMultAddOuter, asMultAdd_add, asMultAdd_bvv, sumUp, scale_int, addAll, addTo, outerLoop, regroup]
  have hf : foldMinus (.add [.bvv 64 1, .bvv 64 0]) 0 = .add [.bvv 64 1] := by rfl
  unfold baseIndexOffset pastEnd
  simp only [hm]
  simp only [decompose, moduloSimplify]
  simp only [ne_eq, reduceCtorEq, not_true_eq_false, decide_false, Bool.false_eq_true, not_false_eq_true, List.filter_cons_of_neg,
    decide_true, List.filter_cons_of_pos, List.filter_nil, List.cons_append, List.nil_append]
  rw [hd]
  have hu : Option.filter usable (some [(Exp.bvv 64 1, Coef.int 1), (.bvv 64 0, .int 1)])
      = some [(Exp.bvv 64 1, Coef.int 1), (.bvv 64 0, .int 1)] := rfl
  rw [hu]
  have hone := evalOne_of (C := noConstraint) (v := fun ρ => wrap 64 (([(Exp.bvv 64 1, Coef.int 1), (.bvv 64 0, .int 1)].filter fun em => !expDivides (sampleSize 1) em.1 && !coefDivides (sampleSize 1) em.2).map fun em => (eval ρ em.1 : Int) * em.2.val ρ).sum % (sampleSize 1).val ρ) (n := 0)
    ⟨zeroAsg, trivial⟩ fun ρ _ => Nat.mod_one _
  simp only [Option.map_some, Option.bind_eq_bind, Option.bind_some, hone, hf]
  have hdiv : divSimplify noConstraint (.add [.bvv 64 1]) (sampleSize 1) = some (fun ρ => eval ρ (.add [.bvv 64 1])) := by
    unfold divSimplify
    rw [if_neg (by simp [constOf]), if_pos (by simp [sampleSize])]
  rw [hdiv]
  rfl

theorem pastEnd_simplify : simplify flatClaripy noConstraint 3 pastEnd [] = some pastEnd := by
  simp [pastEnd, simplify, simplifyLoop, flatClaripy, forceBurrow, sumFrom]

theorem packet_sizes : ∀ k ∈ packetState.keys, SizeOK noConstraint k.2 := by
  intro k hk
  simp only [packetState, State.keys, List.map_cons, List.map_nil, List.mem_cons, List.not_mem_nil, or_false] at hk
  intro ρ _
  rcases hk with rfl | rfl <;> exact ⟨(by decide : 0 < 1), (by decide : 1 < 2 ^ 64), fun k hk => by cases hk; rfl⟩

end Verif.Props.ObjMem

namespace Verif.Props
open Verif.Tool.Expr Verif.Tool.Heap Verif.Tool.ObjectsMemory Verif.Props.ObjMem

/-- C74 is false of the code: a store past the end of the data of a packet is accepted. Here it is to the byte after them, where the machine has another
object; afterwards the load from that object still returns the old value, and the machine loads the new one. -/
theorem C74_packet_overrun : ∃ (K : Claripy) (fuel : Nat) (minus : Exp → Nat → Exp) (C : Asg → Prop) (s s' : State) (addr other : Exp) (ρ : Asg) (mem : Nat → Bool) (v w : Asg → Bits),
    Setting K minus C s addr ∧ Setting K minus C s' other ∧ Placed ρ s ∧ Represents ρ s mem ∧ C ρ ∧ Exact K fuel minus C s addr ρ ∧ Outside K fuel minus C s addr 1 ρ ∧ (v ρ).length = 8 * 1 ∧
    store K fuel minus C s addr v false = some s' ∧ load K fuel minus C s' other 1 false = some w ∧ w ρ ≠ bitsAt (setBits mem (eval ρ addr) (v ρ)) (eval ρ other) 1 := by
  have hset : Setting flatClaripy foldMinus noConstraint packetState pastEnd :=
    ⟨flatClaripy_ok _, foldMinus_ok, packet_sizes, by simp [pastEnd, WF, WFAll, widthHead, width], rfl⟩
  have hbases : (packetState.objs.map Special.base).Nodup := packet_placed.bases
  obtain ⟨s1, h1, hk, hn, hrest, -⟩ := store_object (s := packetState) (o := ⟨.bvs 64 0, sampleSize 1, fun _ => packetObj⟩) (v := fun _ => List.replicate 8 true)
    (f := fun _ => packetObj.setElem 1 (List.replicate 8 true)) pastEnd_simplify pastEnd_result (by simp [packetState]) rfl hbases fun ρ _ => by
      have : eval ρ (.add [.bvv 64 1]) = 1 := rfl
      dsimp only
      rw [this]
      rfl
  have hb2 : baseIndexOffset noConstraint foldMinus s1.keys (.bvs 64 1) = some ⟨.bvs 64 1, fun _ => 0, 0⟩ := by
    rw [hk]
    simp [baseIndexOffset, packetState, State.keys]
  have hs2 : simplify flatClaripy noConstraint 3 (.bvs 64 1) [] = some (.bvs 64 1) := by
    simp [simplify, simplifyLoop, flatClaripy, forceBurrow]
  obtain ⟨w, h2, hw⟩ := load_object (s := s1) (o := ⟨.bvs 64 1, sampleSize 1, fun _ => otherObj⟩) (v := fun _ => List.replicate 8 false) (n := 1)
    hs2 hb2 (hrest _ (by simp [packetState]) (by simp)) rfl (by rw [hn]; exact hbases) fun ρ _ => rfl
  refine ⟨flatClaripy, 3, foldMinus, noConstraint, packetState, s1, pastEnd, .bvs 64 1, adjacent, fun _ => false, fun _ => List.replicate 8 true, w, hset,
    ⟨flatClaripy_ok _, foldMinus_ok, by rw [hk]; exact packet_sizes, trivial, rfl⟩, packet_placed, packet_represents, trivial,
    C74_exact hset hbases trivial fun a r size _ _ hks => .inl ?_, outside_of pastEnd_simplify pastEnd_result, by simp, h1, h2, ?_⟩
  · simp only [packetState, State.keys, List.map_cons, List.map_nil, List.mem_cons, List.not_mem_nil, or_false, Prod.mk.injEq] at hks
    rcases hks with ⟨-, rfl⟩ | ⟨-, rfl⟩ <;> rfl
  · rw [hw adjacent trivial]
    decide

end Verif.Props
