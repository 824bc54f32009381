/- Ownership of heap elements (C31) and the memory of descriptor rings and agents (C32). -/
import Verif.Props.Heap

set_option autoImplicit false

namespace Verif.Tool.Heap

/-- The operations of a program on its allocations, each given by its number. -/
inductive Op where
  | take (obj : Nat) (fraction : Option Nat) (index offset : Nat)
  | give (obj fraction index offset : Nat)
  | read (obj index offset size : Nat) (rev : Bool)
  | write (obj index offset : Nat) (value : Bits) (rev : Bool)

def put (h : Nat → Obj) (obj : Nat) (o : Obj) : Nat → Obj := fun k => if k = obj then o else h k

/-- One operation. -/
def step (h : Nat → Obj) : Op → Option (Nat → Obj)
  | .take obj f i off =>
    match take (h obj) f i off with
    | none => none
    | some r => some (put h obj r.2)
  | .give obj f i off =>
    match give (h obj) f i off with
    | none => none
    | some o => some (put h obj o)
  | .read obj i off size rev =>
    match read (h obj) i off size rev with
    | none => none
    | some _ => some h
  | .write obj i off v rev =>
    match write (h obj) i off v rev with
    | none => none
    | some o => some (put h obj o)

def run (h : Nat → Obj) : List Op → Option (Nat → Obj)
  | [] => some h
  | op :: ops =>
    match step h op with
    | none => none
    | some h => run h ops

/-- The ownership of an element; allocations without fractions have none. -/
def Obj.own (o : Obj) (index : Nat) : Nat :=
  match o.fractions with
  | none => 0
  | some f => (f index).1

/-- Ownership is at most 100, and there is an element for each index below the count. -/
def Obj.Owned (o : Obj) : Prop := ∀ f, o.fractions = some f → ∀ k, (f k).2 = decide (k < o.count) ∧ (k < o.count → (f k).1 ≤ 100)

theorem allocate_owned {count size : Nat} {eph : Bool} {default : Option Bits} {df : Option Nat} {c : Nat → Bits} {fr : Nat → Nat} {o : Obj}
    (h : allocate count size eph default df c fr = some o) (hd : ∀ d ∈ df, d ≤ 100) (hf : df = none → ∀ k, fr k ≤ 100) : o.Owned := by
  unfold allocate at h
  split at h
  · simp at h
  · simp only [Option.some.injEq] at h
    subst h
    intro f hf' k
    cases eph with
    | true => simp at hf'
    | false =>
      simp only [Bool.false_eq_true, if_false, Option.some.injEq] at hf'
      subst hf'
      refine ⟨rfl, fun _ => ?_⟩
      cases df with
      | none => exact hf rfl k
      | some d => exact hd d rfl

theorem writeLoop_fractions (rev : Bool) : ∀ (fuel : Nat) {o o' : Obj} {index offset : Nat} {rest : Bits}, writeLoop rev fuel o index offset rest = some o' →
    o'.fractions = o.fractions ∧ o'.count = o.count ∧ o'.width = o.width
  | 0, o, o', index, offset, rest, h => by
    unfold writeLoop at h
    split at h
    · simp only [Option.some.injEq] at h; subst h; exact ⟨rfl, rfl, rfl⟩
    · simp at h
  | fuel + 1, o, o', index, offset, rest, h => by
    unfold writeLoop at h
    split at h
    · simp only [Option.some.injEq] at h; subst h; exact ⟨rfl, rfl, rfl⟩
    · split at h
      swap
      · simp at h
      simp only at h
      cases hw : writeElem o index offset (chunkOf o.width offset rest) rev with
      | none => simp [hw] at h
      | some o1 =>
        simp only [hw] at h
        obtain ⟨g1, g2, g3⟩ := writeLoop_fractions rev fuel h
        have : o1.fractions = o.fractions ∧ o1.count = o.count ∧ o1.width = o.width := by
          unfold writeElem at hw
          split at hw
          · simp at hw
          · split at hw
            · simp at hw
            · simp only [Option.some.injEq] at hw; subst hw; exact ⟨rfl, rfl, rfl⟩
        exact ⟨g1.trans this.1, g2.trans this.2.1, g3.trans this.2.2⟩

theorem take_spec {o : Obj} {fraction : Option Nat} {index offset : Nat} {r : Nat × Obj} (h : take o fraction index offset = some r) :
    ∃ f, o.fractions = some f ∧ offset = 0 ∧ (f index).2 = true ∧ fraction.getD (f index).1 ≤ (f index).1 ∧ r.1 = (f index).1 ∧
      r.2 = { o with fractions := some fun k => if k = index then ((f index).1 - fraction.getD (f index).1, true) else f k } := by
  unfold take at h
  split at h
  · simp at h
  · rename_i h0
    split at h
    · simp at h
    · rename_i f hf
      simp only at h
      split at h
      · rename_i hc
        simp only [Option.some.injEq] at h
        simp only [Bool.and_eq_true, decide_eq_true_eq] at hc
        exact ⟨f, hf, by simpa using h0, hc.1, hc.2, by rw [← h], by rw [← h]⟩
      · simp at h

theorem give_spec {o o' : Obj} {fraction index offset : Nat} (h : give o fraction index offset = some o') :
    ∃ f, o.fractions = some f ∧ offset = 0 ∧ (f index).2 = true ∧ ((f index).1 + fraction) % 256 ≤ 100 ∧
      o' = { o with fractions := some fun k => if k = index then (((f index).1 + fraction) % 256, true) else f k } := by
  unfold give at h
  split at h
  · simp at h
  · rename_i h0
    split at h
    · simp at h
    · rename_i f hf
      split at h
      · rename_i hc
        simp only [Option.some.injEq] at h
        simp only [Bool.and_eq_true, decide_eq_true_eq] at hc
        exact ⟨f, hf, by simpa using h0, hc.1, hc.2, h.symm⟩
      · simp at h

/-- How an operation changes the fractions: those of one allocation by `take` or `give`. -/
theorem step_cases {h h' : Nat → Obj} {op : Op} (hs : step h op = some h') :
    (∃ obj f i off r, op = .take obj f i off ∧ take (h obj) f i off = some r ∧ h' = put h obj r.2) ∨
    (∃ obj f i off o, op = .give obj f i off ∧ give (h obj) f i off = some o ∧ h' = put h obj o) ∨
    ((∀ k, (h' k).fractions = (h k).fractions ∧ (h' k).count = (h k).count) ∧ ∀ f, (∀ o i off, op ≠ .take o f i off) ∧ ∀ o f i off, op ≠ .give o f i off) := by
  cases op with
  | take obj f i off =>
    simp only [step] at hs
    split at hs
    · simp at hs
    · rename_i r hr; simp only [Option.some.injEq] at hs; exact .inl ⟨obj, f, i, off, r, rfl, hr, hs.symm⟩
  | give obj f i off =>
    simp only [step] at hs
    split at hs
    · simp at hs
    · rename_i r hr; simp only [Option.some.injEq] at hs; exact .inr (.inl ⟨obj, f, i, off, r, rfl, hr, hs.symm⟩)
  | read obj i off size rev =>
    simp only [step] at hs
    split at hs
    · simp at hs
    · simp only [Option.some.injEq] at hs
      subst hs
      exact .inr (.inr ⟨fun _ => ⟨rfl, rfl⟩, by simp⟩)
  | write obj i off v rev =>
    simp only [step] at hs
    split at hs
    · simp at hs
    · rename_i o ho
      simp only [Option.some.injEq] at hs
      subst hs
      refine .inr (.inr ⟨fun k => ?_, by simp⟩)
      obtain ⟨g1, g2, -⟩ := writeLoop_fractions rev _ ho
      by_cases hk : k = obj
      · subst hk; simp [put, g1, g2]
      · simp [put, hk]

theorem step_owned {h h' : Nat → Obj} {op : Op} (ho : ∀ k, (h k).Owned) (hs : step h op = some h') : ∀ k, (h' k).Owned := by
  rcases step_cases hs with ⟨obj, f, i, off, r, -, hr, rfl⟩ | ⟨obj, f, i, off, o, -, hr, rfl⟩ | ⟨hc, -⟩
  · obtain ⟨fs, g1, g2, g3, g4, g5, g6⟩ := take_spec hr
    intro k
    by_cases hk : k = obj
    · subst hk
      intro f' hf' j
      simp only [put, if_true, g6, Option.some.injEq] at hf' ⊢
      subst hf'
      obtain ⟨e1, e2⟩ := ho k fs g1 j
      by_cases hj : j = i
      · subst hj
        simp only [if_true]
        refine ⟨by rw [← e1, g3], fun hlt => Nat.le_trans (Nat.sub_le _ _) (e2 hlt)⟩
      · simp only [hj, if_false]; exact ⟨e1, e2⟩
    · simp only [put, hk, if_false]; exact ho k
  · obtain ⟨fs, g1, g2, g3, g4, g6⟩ := give_spec hr
    intro k
    by_cases hk : k = obj
    · subst hk
      intro f' hf' j
      simp only [put, if_true, g6, Option.some.injEq] at hf' ⊢
      subst hf'
      obtain ⟨e1, e2⟩ := ho k fs g1 j
      by_cases hj : j = i
      · subst hj
        simp only [if_true]
        exact ⟨by rw [← e1, g3], fun _ => g4⟩
      · simp only [hj, if_false]; exact ⟨e1, e2⟩
    · simp only [put, hk, if_false]; exact ho k
  · intro k f hf j
    rw [(hc k).1] at hf
    rw [(hc k).2]
    exact ho k f hf j

/-- What an operation takes from an element. -/
def taken (h : Nat → Obj) (op : Op) (obj index : Nat) : Nat :=
  match op with
  | .take o f i _ => if o = obj ∧ i = index then f.getD ((h obj).own index) else 0
  | _ => 0

/-- What an operation gives to an element. -/
def given (op : Op) (obj index : Nat) : Nat :=
  match op with
  | .give o f i _ => if o = obj ∧ i = index then f else 0
  | _ => 0

/-- What the operations take from an element in all. -/
def totalTaken (h : Nat → Obj) (obj index : Nat) : List Op → Nat
  | [] => 0
  | op :: ops => taken h op obj index + match step h op with
    | none => 0
    | some h => totalTaken h obj index ops

def totalGiven (obj index : Nat) : List Op → Nat
  | [] => 0
  | op :: ops => given op obj index + totalGiven obj index ops

end Verif.Tool.Heap

namespace Verif.Props

open Verif.Tool.Heap

/-- C31, bounds: whatever operations a program performs on its allocations, every element's ownership stays at most 100. -/
theorem C31_bounded (ops : List Op) : ∀ {h h' : Nat → Obj}, (∀ k, (h k).Owned) → run h ops = some h' → ∀ k, (h' k).Owned := by
  induction ops with
  | nil => intro h h' ho hr; simp only [run, Option.some.injEq] at hr; subst hr; exact ho
  | cons op ops ih =>
    intro h h' ho hr
    unfold run at hr
    cases hs : step h op with
    | none => simp [hs] at hr
    | some h1 => simp only [hs] at hr; exact ih (step_owned ho hs) hr

/-- C31: new allocations are within the bounds, if the default ownership is. -/
theorem C31_allocated {count size : Nat} {eph : Bool} {default : Option Bits} {df : Option Nat} {c : Nat → Bits} {fr : Nat → Nat} {o : Obj}
    (h : allocate count size eph default df c fr = some o) (hd : ∀ d ∈ df, d ≤ 100) (hf : df = none → ∀ k, fr k ≤ 100) : o.Owned := allocate_owned h hd hf

/-- C31: giving back what was taken restores the allocation. -/
theorem C31_take_give {o : Obj} (ho : o.Owned) {fraction index offset : Nat} {r : Nat × Obj} (h : take o (some fraction) index offset = some r) :
    give r.2 fraction index offset = some o := by
  obtain ⟨f, g1, g2, g3, g4, g5, g6⟩ := take_spec h
  simp only [Option.getD_some] at g4 g6
  have hk : index < o.count := by simpa [(ho f g1 index).1] using g3
  have hle := (ho f g1 index).2 hk
  have hmod : ((f index).1 - fraction + fraction) % 256 = (f index).1 := by omega
  have hfun : (fun k => if k = index then (((f index).1 - fraction + fraction) % 256, true) else if k = index then ((f index).1 - fraction, true) else f k) = f := by
    funext k
    by_cases hk : k = index
    · subst hk; simp only [if_true, hmod]; rw [← g3]
    · simp [hk]
  unfold give
  rw [g6]
  simp only [g2, ne_eq, not_true, if_false, if_true, Bool.true_and, hmod, hle, decide_true, Option.some.injEq]
  rw [hmod] at hfun
  have hfun' : (fun k => if k = index then ((f index).1, true) else if k = index then ((f index).1 - fraction, true) else f k) = f := hfun
  rw [hfun', ← g1]

/-- C31: everything taken and given back: `take` of all that is owned, given back, restores the allocation. -/
theorem C31_take_all_give {o : Obj} (ho : o.Owned) {index offset : Nat} {r : Nat × Obj} (h : take o none index offset = some r) :
    give r.2 r.1 index offset = some o := by
  obtain ⟨f, g1, g2, g3, g4, g5, g6⟩ := take_spec h
  refine C31_take_give ho (fraction := r.1) (r := r) ?_
  unfold take at h ⊢
  simp only [g1, Option.getD_some, Option.getD_none] at h ⊢
  rw [g5]
  exact h

/-- C31, conservation: what is owned of an element afterwards, and what was taken, make up what was owned before and what was given. This
holds if no single gift could exceed what 8 bits hold; in general it is false: `C31_give_wraps`. -/
theorem C31_conserved_partial (obj index : Nat) (ops : List Op) : ∀ {h h' : Nat → Obj}, (∀ k, (h k).Owned) →
    (∀ o f i off, Op.give o f i off ∈ ops → f ≤ 155) → run h ops = some h' →
    (h' obj).own index + totalTaken h obj index ops = (h obj).own index + totalGiven obj index ops := by
  induction ops with
  | nil => intro h h' ho _ hr; simp only [run, Option.some.injEq] at hr; subst hr; simp [totalTaken, totalGiven]
  | cons op ops ih =>
    intro h h' ho hg hr
    unfold run at hr
    cases hs : step h op with
    | none => simp [hs] at hr
    | some h1 =>
      simp only [hs] at hr
      have := ih (step_owned ho hs) (fun o f i off hm => hg o f i off (by simp [hm])) hr
      unfold totalTaken totalGiven
      simp only [hs]
      have hone : (h1 obj).own index + taken h op obj index = (h obj).own index + given op obj index := by
        rcases step_cases hs with ⟨o, f, i, off, r, rfl, hr', rfl⟩ | ⟨o, f, i, off, o', rfl, hr', rfl⟩ | ⟨hc, hn⟩
        · obtain ⟨fs, g1, g2, g3, g4, g5, g6⟩ := take_spec hr'
          by_cases ho' : o = obj
          · subst ho'
            by_cases hi : i = index
            · subst hi
              simp only [taken, given, put, if_true, g6, Obj.own, g1, and_self]
              omega
            · have hi' : index ≠ i := fun e => hi e.symm
              simp [taken, given, put, g6, Obj.own, g1, hi, hi']
          · have ho2 : obj ≠ o := fun e => ho' e.symm
            simp [taken, given, put, ho', ho2]
        · obtain ⟨fs, g1, g2, g3, g4, g6⟩ := give_spec hr'
          by_cases ho' : o = obj
          · subst ho'
            by_cases hi : i = index
            · subst hi
              have hf := hg o f i off (by simp)
              have hk : i < (h o).count := by simpa [(ho o fs g1 i).1] using g3
              have hle := (ho o fs g1 i).2 hk
              simp only [taken, given, put, if_true, g6, Obj.own, g1, and_self]
              omega
            · have hi' : index ≠ i := fun e => hi e.symm
              simp [taken, given, put, g6, Obj.own, g1, hi, hi']
          · have ho2 : obj ≠ o := fun e => ho' e.symm
            simp [taken, given, put, ho', ho2]
        · have e1 : taken h op obj index = 0 := by
            cases op with
            | take o f i off => exact absurd rfl ((hn f).1 o i off)
            | _ => rfl
          have e2 : given op obj index = 0 := by
            cases op with
            | give o f i off => exact absurd rfl ((hn none).2 o f i off)
            | _ => rfl
          have e3 : (h1 obj).own index = (h obj).own index := by unfold Obj.own; rw [(hc obj).1]
          omega
      omega

/-- C31 is false in general: giving 200 to a fully owned element is accepted, and leaves it with less. -/
theorem C31_give_wraps : ∃ o o' : Obj, o.Owned ∧ o.own 0 = 100 ∧ give o 200 0 0 = some o' ∧ o'.own 0 = 44 := by
  refine ⟨⟨1, 8, fun _ => ([], true), some fun k => (100, decide (k < 1))⟩, _, ?_, rfl, rfl, rfl⟩
  intro f hf k
  simp only [Option.some.injEq] at hf
  subst hf
  exact ⟨rfl, fun _ => Nat.le_refl _⟩

end Verif.Props

namespace Verif.Tool.Heap

theorem canWrite_owned {o : Obj} {f : Nat → Nat × Bool} (hf : o.fractions = some f) (ho : o.Owned) {k : Nat} (h : o.canWrite k = true) : k < o.count ∧ o.own k = 100 := by
  unfold Obj.canWrite at h
  rw [hf] at h
  simp only [Bool.and_eq_true, beq_iff_eq] at h
  refine ⟨by simpa [(ho f hf k).1] using h.1, ?_⟩
  unfold Obj.own
  rw [hf]
  exact h.2

theorem canRead_owned {o : Obj} {f : Nat → Nat × Bool} (hf : o.fractions = some f) (ho : o.Owned) {k : Nat} (h : o.canRead k = true) : k < o.count ∧ o.own k ≠ 0 := by
  unfold Obj.canRead at h
  rw [hf] at h
  simp only [Bool.and_eq_true, bne_iff_ne] at h
  refine ⟨by simpa [(ho f hf k).1] using h.1, ?_⟩
  unfold Obj.own
  rw [hf]
  exact h.2

theorem writeElem_frame {o o' : Obj} {index offset : Nat} {chunk : Bits} {rev : Bool} (h : writeElem o index offset chunk rev = some o') :
    o'.fractions = o.fractions ∧ o'.count = o.count ∧ o'.width = o.width ∧ ∀ k, k ≠ index → o'.contents k = o.contents k := by
  unfold writeElem at h
  split at h
  · simp at h
  · split at h
    · simp at h
    · simp only [Option.some.injEq] at h; subst h
      refine ⟨rfl, rfl, rfl, fun k hk => ?_⟩
      simp [Obj.setElem, hk]

theorem Obj.own_congr {o o' : Obj} (h : o'.fractions = o.fractions) (k : Nat) : o'.own k = o.own k := by unfold Obj.own; rw [h]

theorem Owned_congr {o o' : Obj} (h : o'.fractions = o.fractions) (hc : o'.count = o.count) (ho : o.Owned) : o'.Owned := by
  intro f hf k
  rw [h] at hf
  rw [hc]
  exact ho f hf k

theorem writeLoop_owned (rev : Bool) : ∀ (fuel : Nat) {o o' : Obj} {index offset : Nat} {rest : Bits} {f : Nat → Nat × Bool}, o.fractions = some f → o.Owned →
    writeLoop rev fuel o index offset rest = some o' → ∀ k, o'.contents k ≠ o.contents k → k < o.count ∧ o.own k = 100
  | 0, o, o', index, offset, rest, f, hf, ho, h => by
    unfold writeLoop at h
    split at h
    · simp only [Option.some.injEq] at h; subst h; exact fun k hk => absurd rfl hk
    · simp at h
  | fuel + 1, o, o', index, offset, rest, f, hf, ho, h => by
    unfold writeLoop at h
    split at h
    · simp only [Option.some.injEq] at h; subst h; exact fun k hk => absurd rfl hk
    · split at h
      swap
      · simp at h
      rename_i hcw
      simp only at h
      cases hw : writeElem o index offset (chunkOf o.width offset rest) rev with
      | none => simp [hw] at h
      | some o1 =>
        simp only [hw] at h
        obtain ⟨g1, g2, g3, g4⟩ := writeElem_frame hw
        intro k hk
        by_cases hki : k = index
        · subst hki; exact canWrite_owned hf ho hcw
        · have := writeLoop_owned rev fuel (f := f) (by rw [g1, hf]) (Owned_congr g1 g2 ho) h k (by rw [g4 k hki]; exact hk)
          rw [g2, Obj.own_congr g1] at this
          exact this

theorem readLoop_congr {o p : Obj} {f : Nat → Nat × Bool} (ho : o.Owned) (hf : o.fractions = some f) (hf' : p.fractions = some f)
    (hc : ∀ k, k < o.count → o.own k ≠ 0 → p.contents k = o.contents k) (total : Nat) : ∀ (fuel index : Nat) (result : Bits),
    readLoop p total fuel index result = readLoop o total fuel index result
  | 0, index, result => rfl
  | fuel + 1, index, result => by
    unfold readLoop
    split
    · have hcr : p.canRead index = o.canRead index := by unfold Obj.canRead; rw [hf, hf']
      rw [hcr]
      split
      · rename_i h
        obtain ⟨g1, g2⟩ := canRead_owned hf ho h
        rw [hc index g1 g2]
        exact readLoop_congr ho hf hf' hc total fuel _ _
      · rfl
    · rfl

end Verif.Tool.Heap

namespace Verif.Props

open Verif.Tool.Heap

/-- C31, writes: a write, at any index and offset, changes only elements that are allocated and fully owned. This is for allocations with
ownership; it is false of ephemeral ones: `C31_ephemeral_outside`. -/
theorem C31_write_owned_partial {o o' : Obj} {f : Nat → Nat × Bool} (hf : o.fractions = some f) (ho : o.Owned) {index offset : Nat} {value : Bits} {rev : Bool}
    (h : write o index offset value rev = some o') (k : Nat) (hk : o'.contents k ≠ o.contents k) : k < o.count ∧ o.own k = 100 :=
  writeLoop_owned rev _ hf ho h k hk

/-- C31, writes: the first element written is checked even if the value does not change. -/
theorem C31_write_first_partial {o o' : Obj} {f : Nat → Nat × Bool} (hf : o.fractions = some f) (ho : o.Owned) {index offset : Nat} {value : Bits} {rev : Bool} (hv : value ≠ [])
    (h : write o index offset value rev = some o') : index < o.count ∧ o.own index = 100 := by
  cases value with
  | nil => exact absurd rfl hv
  | cons b bs =>
    unfold write at h
    simp only [List.length_cons] at h
    unfold writeLoop at h
    simp only [List.length_cons, Nat.add_eq_zero_iff, Nat.succ_ne_self, and_false, if_false] at h
    split at h
    · rename_i hc; exact canWrite_owned hf ho hc
    · simp at h

/-- C31, reads: what a read returns depends only on elements that are allocated and at least partly owned. -/
theorem C31_read_owned_partial {o p : Obj} {f : Nat → Nat × Bool} (hf : o.fractions = some f) (hf' : p.fractions = some f) (ho : o.Owned)
    (hc : ∀ k, k < o.count → o.own k ≠ 0 → p.contents k = o.contents k) (index offset size : Nat) (rev : Bool) :
    read p index offset size rev = read o index offset size rev := by
  unfold Verif.Tool.Heap.read
  rw [readLoop_congr ho hf hf' hc]

/-- C31, reads: the first element read is allocated and at least partly owned. -/
theorem C31_read_first_partial {o : Obj} {f : Nat → Nat × Bool} (hf : o.fractions = some f) (ho : o.Owned) {index offset size : Nat} {rev : Bool} {r : Bits} (hs : 0 < size)
    (h : read o index offset size rev = some r) : index < o.count ∧ o.own index ≠ 0 := by
  unfold Verif.Tool.Heap.read at h
  cases hn : size * 8 + offset with
  | zero => omega
  | succ n =>
    rw [hn] at h
    unfold readLoop at h
    simp only [List.length_nil, Nat.zero_lt_succ, if_true] at h
    by_cases hc : o.canRead index = true
    · exact canRead_owned hf ho hc
    · simp [hc] at h

theorem heapExample_owned : heapExample.Owned := by
  intro f hf k
  simp only [heapExample, Option.some.injEq] at hf
  subst hf
  exact ⟨rfl, fun _ => Nat.le_refl _⟩

/-- Borrowing 25 twice and everything once, and giving some of it back, between accesses. -/
def ownOps : List Op := [.take 0 (some 25) 1 0, .read 0 1 0 2 false, .take 0 (some 25) 1 0, .write 0 2 8 (List.replicate 8 true) false, .take 0 none 1 0, .give 0 25 1 0]

def ownHeap : Nat → Obj := fun _ => heapExample

example : ∃ h', run ownHeap ownOps = some h' ∧ (h' 0).own 1 = 25 ∧ (h' 0).own 2 = 100 ∧ totalTaken ownHeap 0 1 ownOps = 100 ∧ totalGiven 0 1 ownOps = 25 ∧
    (∀ k, (ownHeap k).Owned) ∧ ∀ o f i off, Op.give o f i off ∈ ownOps → f ≤ 155 := by
  refine ⟨_, rfl, rfl, rfl, rfl, rfl, fun _ => heapExample_owned, ?_⟩
  intro o f i off hm
  simp [ownOps] at hm
  omega

/-- After the first element is lent to another, it may no longer be written; after all of it is, it may no longer be read. -/
example : ∃ r r', take heapExample (some 25) 0 0 = some r ∧ write r.2 0 0 (List.replicate 16 true) false = none ∧
    (∃ v, read r.2 0 0 2 false = some v) ∧ take r.2 none 0 0 = some r' ∧ read r'.2 0 0 2 false = none ∧ give r'.2 r'.1 0 0 = some r.2 := by
  refine ⟨_, _, rfl, by decide, ⟨_, rfl⟩, rfl, by decide, ?_⟩
  exact C31_take_all_give (C31_bounded [.take 0 (some 25) 0 0] (h := ownHeap) (fun _ => heapExample_owned) rfl 0) rfl

/-- C31 is false of ephemeral allocations, such as that of the packet (/repo/tool/klint/externals/net/packet.py:32): a byte may be written outside of it, and can be read
afterwards. -/
theorem C31_ephemeral_outside : ∃ (o o' : Obj) (v : Bits), o.count = 1 ∧ (allocate 1 1 true none none (fun _ => List.replicate 8 false) (fun _ => 0) = some o) ∧
    read o 1 0 1 false = none ∧ write o 1 0 v false = some o' ∧ read o' 1 0 1 false = some v := by
  exact ⟨_, _, List.replicate 8 true, by rfl, rfl, by decide, rfl, by decide⟩

end Verif.Props

namespace Verif.Tool.Heap

/-- All elements have the width of the memory. -/
def Custom.Sized (m : Custom) : Prop := 0 < m.width ∧ ∀ i v, m.elems i = some v → v.length = m.width

/-- A bit of an element. -/
def Custom.bit (m : Custom) (i j : Nat) : Bool := (m.elem i).getD j false

theorem Custom.elem_length {m : Custom} (hs : m.Sized) (i : Nat) : (m.elem i).length = m.width := by
  unfold Custom.elem
  cases h : m.elems i with
  | none => simp
  | some v => simpa using hs.2 i v h

theorem Custom.setElem_sized {m : Custom} (hs : m.Sized) {i : Nat} {v : Bits} (hv : v.length = m.width) : (m.setElem i v).Sized := by
  refine ⟨hs.1, fun j w hw => ?_⟩
  simp only [Custom.setElem] at hw ⊢
  by_cases hj : j = i
  · subst hj; simp only [if_true, Option.some.injEq] at hw; subst hw; exact hv
  · simp only [hj, if_false] at hw; exact hs.2 j w hw

theorem Custom.setElem_elem (m : Custom) (i : Nat) (v : Bits) (j : Nat) : (m.setElem i v).elem j = if j = i then v else m.elem j := by
  unfold Custom.elem Custom.setElem
  by_cases hj : j = i <;> simp [hj]

/-- The bits with a range replaced. -/
def patch (x : Bits) (offset : Nat) (value : Bits) : Bits := x.take offset ++ value ++ x.drop (offset + value.length)

theorem patch_length {x value : Bits} {offset : Nat} (h : offset + value.length ≤ x.length) : (patch x offset value).length = x.length := by
  simp [patch]; omega

theorem patch_get {x value : Bits} {offset : Nat} (h : offset + value.length ≤ x.length) (j : Nat) :
    (patch x offset value).getD j false = if offset ≤ j ∧ j < offset + value.length then value.getD (j - offset) false else x.getD j false := by
  simp only [patch, List.getD_eq_getElem?_getD, List.append_assoc, List.getElem?_append, List.length_take, List.getElem?_take, List.getElem?_drop]
  by_cases h1 : j < offset
  · have h2 : j < min offset x.length := by omega
    have h3 : ¬ (offset ≤ j) := by omega
    simp [h1, h2, h3]
  · have h2 : ¬ j < min offset x.length := by omega
    have h4 : min offset x.length = offset := by omega
    by_cases h5 : j < offset + value.length
    · have h6 : j - offset < value.length := by omega
      simp [h1, h4, h5, h6, Nat.not_lt.mp h1]
    · have h6 : ¬ j - offset < value.length := by omega
      have h7 : offset + value.length + (j - offset - value.length) = j := by omega
      simp [h1, h4, h5, h6, h7]

theorem maybeRev_some {rev : Bool} {x y : Bits} (h : maybeRev rev x = some y) : (rev = true → x.length % 8 = 0) ∧ y = if rev then revBytes x else x := by
  unfold maybeRev reversed at h
  cases rev with
  | false => simp at h; simp [h]
  | true =>
    simp only [if_true] at h
    split at h
    · rename_i h8; simp only [Option.some.injEq] at h; exact ⟨fun _ => h8, by simp [h]⟩
    · simp at h

theorem maybeRev_eq {rev : Bool} {x : Bits} (h : rev = true → x.length % 8 = 0) : maybeRev rev x = some (if rev then revBytes x else x) := by
  unfold maybeRev reversed
  cases rev with
  | false => simp
  | true => simp [h rfl]

theorem Custom.write_spec {m m' : Custom} (hs : m.Sized) {index offset : Nat} {value : Bits} {rev : Bool} (hv : value ≠ []) (h : m.write index offset value rev = some m') :
    index < m.count ∧ offset + value.length ≤ m.width ∧ (rev = true → m.width % 8 = 0) ∧
    m' = m.setElem index (if rev then revBytes (patch (revBytes (m.elem index)) offset value) else patch (m.elem index) offset value) := by
  have hlen : 0 < value.length := List.length_pos_iff.mpr hv
  have hel := Custom.elem_length hs index
  unfold Custom.write at h
  split at h
  swap
  · simp at h
  rename_i hc
  split at h
  · simp at h
  rename_i ex hex
  obtain ⟨e1, e2⟩ := maybeRev_some hex
  have hexl : ex.length = m.width := by rw [e2]; split <;> simp [revBytes_length, hel]
  simp only at h
  have hval : (if offset ≠ 0 then ex.take offset ++ value else value) = ex.take offset ++ value := by
    split
    · rfl
    · rename_i h0; simp only [ne_eq, Decidable.not_not] at h0; simp [h0]
  rw [hval] at h
  by_cases hle : (ex.take offset ++ value).length ≤ m.width
  swap
  · rw [if_neg hle] at h; simp at h
  rw [if_pos hle] at h
  have hoff : offset + value.length ≤ m.width := by
    simp only [List.length_append, List.length_take, hexl] at hle; omega
  have hpl : (ex.take offset ++ value).length = offset + value.length := by simp [hexl]; omega
  have hp : (if (ex.take offset ++ value).length ≠ m.width then (ex.take offset ++ value) ++ ex.drop (ex.take offset ++ value).length else ex.take offset ++ value) = patch ex offset value := by
    rw [hpl]
    unfold patch
    split
    · rfl
    · rename_i h0
      simp only [ne_eq, Decidable.not_not] at h0
      rw [h0, ← hexl, List.drop_length, List.append_nil]
  rw [hp] at h
  split at h
  · simp at h
  rename_i v hv'
  simp only [Option.some.injEq] at h
  obtain ⟨e3, e4⟩ := maybeRev_some hv'
  refine ⟨hc, hoff, fun hr => hel ▸ e1 hr, ?_⟩
  rw [← h, e4, e2]
  cases rev <;> simp

theorem Custom.write_some {m : Custom} (hs : m.Sized) {index offset : Nat} {value : Bits} {rev : Bool} (hc : index < m.count) (hoff : offset + value.length ≤ m.width)
    (h8 : rev = true → m.width % 8 = 0) : ∃ m', m.write index offset value rev = some m' := by
  have hel := Custom.elem_length hs index
  unfold Custom.write
  rw [if_pos hc, maybeRev_eq (by rw [hel]; exact h8)]
  simp only
  have hexl : (if rev = true then revBytes (m.elem index) else m.elem index).length = m.width := by split <;> simp [revBytes_length, hel]
  generalize (if rev = true then revBytes (m.elem index) else m.elem index) = ex at hexl
  have hpl : (if offset ≠ 0 then ex.take offset ++ value else value).length = offset + value.length := by
    split
    · simp [hexl]; omega
    · rename_i h0; simp only [ne_eq, Decidable.not_not] at h0; omega
  generalize (if offset ≠ 0 then ex.take offset ++ value else value) = v at hpl
  rw [if_pos (by omega)]
  have : (if v.length ≠ m.width then v ++ ex.drop v.length else v).length = m.width := by
    split
    · simp [hexl]; omega
    · rename_i h0; simpa using h0
  rw [maybeRev_eq (by rw [this]; exact h8)]
  exact ⟨_, rfl⟩

/-- The memory written to keeps its shape. -/
theorem Custom.write_sized {m m' : Custom} (hs : m.Sized) {index offset : Nat} {value : Bits} {rev : Bool} (hv : value ≠ []) (h : m.write index offset value rev = some m') : m'.Sized := by
  obtain ⟨-, g1, -, g3⟩ := Custom.write_spec hs hv h
  have hel := Custom.elem_length hs index
  subst g3
  refine Custom.setElem_sized hs ?_
  split
  · rw [revBytes_length, patch_length (by simp [revBytes_length, hel]; exact g1), revBytes_length, hel]
  · rw [patch_length (by rw [hel]; exact g1), hel]

end Verif.Tool.Heap

namespace Verif.Props

open Verif.Tool.Heap

/-- C32, writes in the machine's byte order: the bits written have the new value, and every other bit of that and other elements is as before. This
is false of the opposite byte order for parts of elements: `C32_reversed_other`. -/
theorem C32_write_partial {m m' : Custom} (hs : m.Sized) {index offset : Nat} {value : Bits} (hv : value ≠ []) (h : m.write index offset value false = some m') :
    m'.Sized ∧ ∀ i j, m'.bit i j = if i = index ∧ offset ≤ j ∧ j < offset + value.length then value.getD (j - offset) false else m.bit i j := by
  refine ⟨Custom.write_sized hs hv h, fun i j => ?_⟩
  obtain ⟨g0, g1, -, g3⟩ := Custom.write_spec hs hv h
  have hel := Custom.elem_length hs index
  unfold Custom.bit
  rw [g3, Custom.setElem_elem]
  by_cases hi : i = index
  · subst hi
    simp only [if_true, Bool.false_eq_true, if_false, true_and]
    rw [patch_get (by rw [hel]; exact g1)]
  · simp [hi]

/-- C32, reads: exactly the bits asked for, and the memory still has the same bits. -/
theorem C32_read_partial {m m' : Custom} (hs : m.Sized) {index offset size : Nat} {r : Bits} (h : m.read index offset (some size) false = some (r, m')) :
    index < m.count ∧ offset + size * 8 ≤ m.width ∧ r.length = size * 8 ∧ (∀ j, j < size * 8 → r.getD j false = m.bit index (offset + j)) ∧ ∀ i j, m'.bit i j = m.bit i j := by
  have hel := Custom.elem_length hs index
  unfold Custom.read at h
  simp only at h
  split at h
  swap
  · simp at h
  rename_i hc
  split at h
  swap
  · simp at h
  rename_i hle
  split at h
  · simp at h
  rename_i v hv
  simp only [Option.some.injEq, Prod.mk.injEq] at h
  obtain ⟨-, e2⟩ := maybeRev_some hv
  simp only [Bool.false_eq_true, if_false] at e2
  obtain ⟨h1, h2⟩ := h
  subst h1 h2
  refine ⟨hc, hle.1, ?_, ?_, ?_⟩
  · rw [e2]; simp [hel]; omega
  · intro j hj; rw [e2, getD_drop_take _ _ _ _ hj]; rfl
  · intro i j
    unfold Custom.bit
    rw [Custom.setElem_elem]
    by_cases hi : i = index
    · subst hi; simp
    · simp [hi]

/-- C32: a range just written reads back as written. -/
theorem C32_read_after_write_partial {m m' : Custom} (hs : m.Sized) {index offset size : Nat} {value : Bits} (hz : 0 < size) (hv : value.length = size * 8)
    (h : m.write index offset value false = some m') : ∃ m'', m'.read index offset (some size) false = some (value, m'') := by
  have hne : value ≠ [] := by intro e; rw [e] at hv; simp at hv; omega
  obtain ⟨g0, g1, -, g3⟩ := Custom.write_spec hs hne h
  obtain ⟨hs', hb⟩ := C32_write_partial hs hne h
  have hel' := Custom.elem_length hs' index
  have hw : m'.width = m.width := by rw [g3]; rfl
  have hcn : m'.count = m.count := by rw [g3]; rfl
  unfold Custom.read
  simp only [hcn, hw, g0, if_true]
  rw [if_pos (by omega), maybeRev_eq (by simp)]
  simp only [Bool.false_eq_true, if_false, Option.some.injEq, Prod.mk.injEq]
  refine ⟨_, ?_, rfl⟩
  refine bits_ext ?_ ?_
  · simp [hel', hw]; omega
  · intro j hj
    have hj' : j < size * 8 := by simp [hel', hw] at hj; omega
    rw [getD_drop_take _ _ _ _ hj']
    have := hb index (offset + j)
    unfold Custom.bit at this
    rw [this, if_pos ⟨rfl, by omega, by omega⟩]
    simp

/-- C32: writes of a range of an element of the memory succeed. -/
theorem C32_write_succeeds {m : Custom} (hs : m.Sized) {index offset : Nat} {value : Bits} {rev : Bool} (hc : index < m.count) (hoff : offset + value.length ≤ m.width)
    (h8 : rev = true → m.width % 8 = 0) : ∃ m', m.write index offset value rev = some m' := Custom.write_some hs hc hoff h8

/-- C32, opposite byte order, what does hold: bytes written at an offset read back in the same byte order at the offset mirrored within the element, for a whole
element the same one; other elements are as before. -/
theorem C32_reversed_partial {m m' : Custom} (hs : m.Sized) {index offset size : Nat} {value : Bits} (hz : 0 < size) (hv : value.length = size * 8) (ho : offset % 8 = 0)
    (h : m.write index offset value true = some m') :
    (∃ m'', m'.read index (m.width - offset - size * 8) (some size) true = some (value, m'')) ∧ ∀ i j, i ≠ index → m'.bit i j = m.bit i j := by
  have hne : value ≠ [] := by intro e; rw [e] at hv; simp at hv; omega
  obtain ⟨g0, g1, g2, g3⟩ := Custom.write_spec hs hne h
  have h8 := g2 rfl
  have hs' := Custom.write_sized hs hne h
  have hel := Custom.elem_length hs index
  have hel' := Custom.elem_length hs' index
  have hw : m'.width = m.width := by rw [g3]; rfl
  have hcn : m'.count = m.count := by rw [g3]; rfl
  have helm : m'.elem index = revBytes (patch (revBytes (m.elem index)) offset value) := by rw [g3, Custom.setElem_elem]; simp
  have hpl : (patch (revBytes (m.elem index)) offset value).length = m.width := by
    rw [patch_length (by rw [revBytes_length, hel]; exact g1), revBytes_length, hel]
  constructor
  · unfold Custom.read
    simp only [hcn, hw, g0, if_true]
    have hsl : (((m'.elem index).drop (m.width - offset - size * 8)).take (size * 8)).length = size * 8 := by simp [hel', hw]; omega
    rw [if_pos (by omega), maybeRev_eq (fun _ => by rw [hsl]; omega)]
    simp only [if_true, Option.some.injEq, Prod.mk.injEq]
    refine ⟨_, ?_, rfl⟩
    refine bits_ext (by rw [revBytes_length, hsl, hv]) ?_
    intro j hj
    rw [revBytes_length] at hj
    rw [revBytes_get hj, hsl]
    rw [hsl] at hj
    rw [getD_drop_take _ _ _ _ (by omega), helm, revBytes_get (by rw [hpl]; omega), hpl]
    rw [patch_get (by rw [revBytes_length, hel]; exact g1), if_pos (by omega)]
    congr 1
    omega
  · intro i j hi
    unfold Custom.bit
    rw [g3, Custom.setElem_elem]
    simp [hi]

/-- C32 is false of the opposite byte order: a byte written to a two-byte element does not read back, as the writer changes the reversed element and the reader reverses
the byte it takes from the element. -/
theorem C32_reversed_other : ∃ (m m' m'' : Custom) (value r : Bits), m.Sized ∧ value.length = 8 ∧ m.write 0 0 value true = some m' ∧ m'.read 0 0 (some 1) true = some (r, m'') ∧ r ≠ value := by
  refine ⟨⟨1, 16, fun _ => none⟩, _, _, List.replicate 8 true, _, ⟨by simp, by simp⟩, rfl, rfl, rfl, by decide⟩

/-- Writing the second word of a descriptor. -/
example : ∃ m' : Custom, (⟨4, 128, fun _ => none⟩ : Custom).write 2 64 (List.replicate 64 true) false = some m' ∧ ∃ m'', m'.read 2 64 (some 8) false = some (List.replicate 64 true, m'') := by
  have hs : (⟨4, 128, fun _ => none⟩ : Custom).Sized := ⟨by simp, by simp⟩
  obtain ⟨m', h⟩ := C32_write_succeeds hs (index := 2) (offset := 64) (value := List.replicate 64 true) (rev := false) (by simp) (by simp) (by simp)
  exact ⟨m', h, C32_read_after_write_partial hs (by simp) (by simp) h⟩

/-- A whole descriptor in the opposite byte order. -/
example : ∃ m' : Custom, (⟨4, 128, fun _ => none⟩ : Custom).write 2 0 (List.replicate 64 true ++ List.replicate 64 false) true = some m' ∧
    ∃ m'', m'.read 2 0 (some 16) true = some (List.replicate 64 true ++ List.replicate 64 false, m'') := by
  have hs : (⟨4, 128, fun _ => none⟩ : Custom).Sized := ⟨by simp, by simp⟩
  obtain ⟨m', h⟩ := C32_write_succeeds hs (index := 2) (offset := 0) (value := List.replicate 64 true ++ List.replicate 64 false) (rev := true) (by simp) (by simp) (by simp)
  exact ⟨m', h, (C32_reversed_partial hs (size := 16) (by simp) (by simp) (by simp) h).1⟩

end Verif.Props
