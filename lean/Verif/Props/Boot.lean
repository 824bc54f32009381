import Verif.Env.Boot

set_option autoImplicit false

namespace Verif.Props

namespace Boot

open Verif.Boot

/-- What the checks of the first part leave alone. -/
structure Same (L : Layout) (s s' : St) : Prop where
  cr0 : s'.cr0 = s.cr0
  cr3 : s'.cr3 = s.cr3
  cr4 : s'.cr4 = s.cr4
  efer : s'.efer = s.efer
  xcr0 : s'.xcr0 = s.xcr0
  idt : s'.idt = s.idt
  cs : s'.cs = s.cs
  mem : ∀ a, (a < L.stackTop ∨ L.stackBottom ≤ a) → s'.mem a = s.mem a

theorem Same.refl (L : Layout) (s : St) : Same L s s := ⟨rfl, rfl, rfl, rfl, rfl, rfl, rfl, fun _ _ => rfl⟩

theorem Same.trans {L : Layout} {a b d : St} (h : Same L a b) (h' : Same L b d) : Same L a d :=
  ⟨h'.cr0.trans h.cr0, h'.cr3.trans h.cr3, h'.cr4.trans h.cr4, h'.efer.trans h.efer, h'.xcr0.trans h.xcr0, h'.idt.trans h.idt, h'.cs.trans h.cs,
    fun x hx => (h'.mem x hx).trans (h.mem x hx)⟩

theorem translate_off {s : St} (h : s.cr0.getLsbD 31 = false) (v : Nat) : translate s v = some ⟨v, true, true⟩ := by
  simp only [translate, h, Bool.false_eq_true, if_false]

theorem load_off {s : St} (h : s.cr0.getLsbD 31 = false) : ∀ (n a : Nat), load s a n = some (rd s.mem a n)
  | 0, _ => rfl
  | n + 1, a => by simp [load, rd, translate_off h, load_off h n]

theorem exec_off {c : Cpu} {L : Layout} {s : St} (h : s.cr0.getLsbD 31 = false) (k : Nat) (i : Instr) (is : List Instr) :
    exec c L k (i :: is) s = (step c L s i).andThen (exec c L (k + 1) is) := by
  simp [exec, translate_off h]

theorem rd_wr4 (m : Nat → BitVec 8) (a v : Nat) (h : v < 2 ^ 32) : rd (wr m a 4 v) a 4 = v := by
  have e0 : a ≤ a ∧ a < a + 4 := by omega
  have e1 : a ≤ a + 1 ∧ a + 1 < a + 4 := by omega
  have e2 : a ≤ a + 1 + 1 ∧ a + 1 + 1 < a + 4 := by omega
  have e3 : a ≤ a + 1 + 1 + 1 ∧ a + 1 + 1 + 1 < a + 4 := by omega
  have d0 : a - a = 0 := by omega
  have d1 : a + 1 - a = 1 := by omega
  have d2 : a + 1 + 1 - a = 2 := by omega
  have d3 : a + 1 + 1 + 1 - a = 3 := by omega
  simp only [rd, wr, if_pos e0, if_pos e1, if_pos e2, if_pos e3, d0, d1, d2, d3, BitVec.toNat_ofNat]
  omega

theorem low32 (b : BitVec 32) : b.setWidth 64 &&& 0xFFFFFFFF#64 = b.setWidth 64 := by
  apply BitVec.eq_of_toNat_eq
  have hb := b.isLt
  rw [BitVec.toNat_and]
  have : (0xFFFFFFFF#64).toNat = 2 ^ 32 - 1 := rfl
  rw [this, Nat.and_two_pow_sub_one_eq_mod, BitVec.toNat_setWidth]
  omega

theorem xor_ne (f : BitVec 32) : f.setWidth 64 ^^^ 0x200000#64 ≠ f.setWidth 64 := by
  intro h
  have := congrArg (fun x => x.getLsbD 21) h
  simp at this

theorem zf (e : BitVec 32) (z c : Bool) : (setFlags e z c).getLsbD 6 = z := by
  cases z <;> cases c <;> simp [setFlags]

theorem cf (e : BitVec 32) (z c : Bool) : (setFlags e z c).getLsbD 0 = c := by
  cases z <;> cases c <;> simp [setFlags]

theorem id_kept (f e : BitVec 32) (z c : Bool) (h : e = f) :
    ((f ^^^ 0x200000#32) &&& ~~~0x200000#32) ||| (setFlags e z c &&& 0x200000#32) = f := by
  subst h
  have e1 : setFlags e z c &&& 0x200000#32 = e &&& 0x200000#32 := by
    have : setFlags e z c = (e &&& 0xFFFFFFBE#32) ||| ((if z then 0x40#32 else 0#32) ||| (if c then 1#32 else 0#32)) := BitVec.or_assoc _ _ _
    rw [this, BitVec.and_comm, BitVec.and_or_distrib_left, BitVec.and_comm, BitVec.and_assoc]
    have : (0x200000#32 &&& ((if z then 0x40#32 else 0#32) ||| (if c then 1#32 else 0#32))) = 0#32 := by cases z <;> cases c <;> rfl
    rw [this, BitVec.or_zero]
    rfl
  rw [e1]
  apply BitVec.eq_of_getLsbD_eq
  intro i hi
  simp only [BitVec.getLsbD_or, BitVec.getLsbD_and, BitVec.getLsbD_xor, BitVec.getLsbD_not, hi, decide_true, Bool.true_and]
  generalize (0x200000#32).getLsbD i = b
  cases b <;> cases e.getLsbD i <;> rfl

theorem pushfd_pop {c : Cpu} {L : Layout} {s : St} (h : s.cr0.getLsbD 31 = false) (e : Nat) (he : s.esp = BitVec.ofNat 64 e) (h4 : 4 ≤ e)
    (hlt : e < 2 ^ 32) (k : Nat) (rest : List Instr) :
    exec c L k (.pushfd :: .pop .eax :: rest) s =
      exec c L (k + 2) rest { s with eax := s.eflags.setWidth 64, mem := wr s.mem (e - 4) 4 s.eflags.toNat } := by
  have e1 : s.esp.toNat = e := by rw [he, BitVec.toNat_ofNat]; omega
  have e2 : (e + 2 ^ 32 - 4) % 2 ^ 32 = e - 4 := by omega
  have e3 : (BitVec.ofNat 64 (e - 4)).toNat = e - 4 := by rw [BitVec.toNat_ofNat]; omega
  have e4 : (e - 4 + 4) % 2 ^ 32 = e := by omega
  have e5 : BitVec.ofNat 64 s.eflags.toNat &&& 0xFFFFFFFF#64 = s.eflags.setWidth 64 := by
    rw [BitVec.ofNat_toNat, low32]
  rw [exec_off h]
  simp only [step, Res.andThen, e1, e2, translate_off h]
  rw [exec_off (by exact h)]
  simp only [step, Res.andThen]
  rw [load_off (by exact h)]
  simp only [e3, rd_wr4 s.mem (e - 4) s.eflags.toNat s.eflags.isLt, e4, St.put, St.set, e5]
  rw [he]

theorem push_popfd {c : Cpu} {L : Layout} {s : St} (h : s.cr0.getLsbD 31 = false) (e : Nat) (he : s.esp = BitVec.ofNat 64 e) (h4 : 4 ≤ e)
    (hlt : e < 2 ^ 32) (f : BitVec 32) (hf : s.eax = f.setWidth 64) (k : Nat) (rest : List Instr) :
    exec c L k (.push .eax :: .popfd :: rest) s =
      exec c L (k + 2) rest { s with
        eflags := if c.hasCpuid then f else (f &&& ~~~0x200000#32) ||| (s.eflags &&& 0x200000#32),
        mem := wr s.mem (e - 4) 4 f.toNat } := by
  have e1 : s.esp.toNat = e := by rw [he, BitVec.toNat_ofNat]; omega
  have e2 : (e + 2 ^ 32 - 4) % 2 ^ 32 = e - 4 := by omega
  have e3 : (BitVec.ofNat 64 (e - 4)).toNat = e - 4 := by rw [BitVec.toNat_ofNat]; omega
  have e4 : (e - 4 + 4) % 2 ^ 32 = e := by omega
  have e5 : s.eax.toNat % 2 ^ 32 = f.toNat := by
    rw [hf, BitVec.toNat_setWidth]
    have := f.isLt
    omega
  rw [exec_off h]
  simp only [step, Res.andThen, e1, e2, translate_off h, St.get, e5]
  rw [exec_off (by exact h)]
  simp only [step, Res.andThen]
  rw [load_off (by exact h)]
  simp only [e3, rd_wr4 s.mem (e - 4) f.toNat f.isLt, e4, BitVec.ofNat_toNat, BitVec.setWidth_eq]
  rw [he]

/-- Lines 89-153. -/
theorem checkCpuid_run {c : Cpu} {L : Layout} {s : St} (h : s.cr0.getLsbD 31 = false) (hL : L.stackBottom = L.stackTop + 2 ^ 20)
    (hlt : L.stackBottom < 2 ^ 32) (k : Nat) (rest : List Instr) :
    (c.hasCpuid = false → exec c L k (checkCpuid ++ rest) s = .halted) ∧
    (c.hasCpuid = true → ∃ s', Same L s s' ∧ exec c L k (checkCpuid ++ rest) s = exec c L (k + 11) rest s') := by
  have e0 : BitVec.ofNat 64 L.stackBottom &&& 0xFFFFFFFF#64 = BitVec.ofNat 64 L.stackBottom := by
    have := low32 (BitVec.ofNat 32 L.stackBottom)
    have e : (BitVec.ofNat 32 L.stackBottom).setWidth 64 = BitVec.ofNat 64 L.stackBottom := by
      apply BitVec.eq_of_toNat_eq
      simp only [BitVec.toNat_setWidth, BitVec.toNat_ofNat]
      omega
    rwa [e] at this
  have h4 : 4 ≤ L.stackBottom := by omega
  have e6 : s.eflags.setWidth 64 ^^^ 0x200000#64 = (s.eflags ^^^ 0x200000#32).setWidth 64 := by
    rw [BitVec.setWidth_xor]
    rfl
  have hm : ∀ (m : Nat → BitVec 8) (v a : Nat), (a < L.stackTop ∨ L.stackBottom ≤ a) → wr m (L.stackBottom - 4) 4 v a = m a := by
    intro m v a ha
    have : ¬ (L.stackBottom - 4 ≤ a ∧ a < L.stackBottom - 4 + 4) := by omega
    simp only [wr, if_neg this]
  unfold checkCpuid
  simp only [List.cons_append, List.nil_append]
  rw [exec_off h]
  simp only [step, Res.andThen, St.put, St.set, Src.val, e0]
  rw [pushfd_pop (by exact h) L.stackBottom rfl h4 hlt, exec_off (by exact h)]
  simp only [step, Res.andThen, St.put, St.set, St.get, Src.val, low32]
  rw [exec_off (by exact h)]
  simp only [step, Res.andThen, St.logic, St.flags, St.put, St.set, St.get, Src.val, e6, low32]
  rw [push_popfd (by exact h) L.stackBottom rfl h4 hlt (s.eflags ^^^ 0x200000#32) rfl]
  rw [pushfd_pop (by exact h) L.stackBottom rfl h4 hlt, exec_off (by exact h)]
  simp only [step, Res.andThen, St.flags, St.get, Src.val, low32]
  rw [exec_off (by exact h)]
  refine ⟨fun hc => ?_, fun hc => ?_⟩
  · simp only [step, Cond.holds, zf, hc, Bool.false_eq_true, if_false, id_kept _ _ _ _ rfl, beq_self_eq_true, if_true, Res.andThen]
  · simp only [step, Cond.holds, zf, hc, if_true]
    have hne : ((s.eflags ^^^ 0x200000#32).setWidth 64 == s.eflags.setWidth 64) = false := by
      rw [← e6]
      simpa using xor_ne s.eflags
    rw [hne]
    simp only [Bool.false_eq_true, if_false, Res.andThen]
    refine ⟨_, ?_, rfl⟩
    exact ⟨rfl, rfl, rfl, rfl, rfl, rfl, rfl, fun a ha => by simp only [hm _ _ a ha]⟩

/-- The state after CPUID. -/
def reports (s : St) (i : Info) : St :=
  { s with eax := i.eax.setWidth 64, ebx := i.ebx.setWidth 64, ecx := i.ecx.setWidth 64, edx := i.edx.setWidth 64 }

theorem mov_cpuid {c : Cpu} {L : Layout} {s : St} (h : s.cr0.getLsbD 31 = false) (hc : c.hasCpuid = true) (v : BitVec 64) (leaf : BitVec 32)
    (hv : (v &&& 0xFFFFFFFF#64).setWidth 32 = leaf) (k : Nat) (rest : List Instr) :
    exec c L k (.mov .w32 .eax (.imm v) :: .cpuid :: rest) s =
      exec c L (k + 2) rest (reports s (c.cpuid leaf (s.ecx.setWidth 32))) := by
  rw [exec_off h]
  simp only [step, Res.andThen, St.put, St.set, Src.val]
  rw [exec_off (by exact h)]
  simp only [step, Res.andThen, hc, if_true, hv]
  rfl

theorem bt_jnc {c : Cpu} {L : Layout} {s : St} (h : s.cr0.getLsbD 31 = false) (r : Reg) (b : Nat) (k : Nat) (rest : List Instr) :
    exec c L k (.bt r b :: .jcc .nc :: rest) s =
      if (s.get r).getLsbD b then exec c L (k + 2) rest (s.flags (s.eflags.getLsbD 6) true) else .halted := by
  rw [exec_off h]
  simp only [step, Res.andThen]
  rw [exec_off (by exact h)]
  simp only [step, Cond.holds, St.flags, cf]
  cases (s.get r).getLsbD b <;> simp [Res.andThen]

theorem leaf_eq (c : Cpu) (l sub : BitVec 32) (h : c.leaf l = true) : c.cpuid l sub = c.info l sub := by
  simp only [Cpu.cpuid, h, if_true]

theorem leaf_basic (c : Cpu) (l : BitVec 32) (h : l.toNat ≤ c.maxBasic.toNat) : c.leaf l = true := by
  simp only [Cpu.leaf, Bool.or_eq_true]
  left
  simpa [BitVec.le_def] using h

theorem leaf_extended (c : Cpu) (l : BitVec 32) (h : l.toNat ≤ c.maxExtended.toNat) (h' : 2 ^ 31 ≤ l.toNat) : c.leaf l = true := by
  simp only [Cpu.leaf, Bool.or_eq_true]
  right
  simp only [Bool.and_eq_true, decide_eq_true_eq, BitVec.le_def]
  exact ⟨h', h⟩

theorem same_reports (L : Layout) (s : St) (i : Info) : Same L s (reports s i) := ⟨rfl, rfl, rfl, rfl, rfl, rfl, rfl, fun _ _ => rfl⟩

theorem same_flags (L : Layout) (s : St) (z c : Bool) : Same L s (s.flags z c) := ⟨rfl, rfl, rfl, rfl, rfl, rfl, rfl, fun _ _ => rfl⟩

theorem toNat_low (b : BitVec 32) : (b.setWidth 64).toNat = b.toNat := by
  rw [BitVec.toNat_setWidth]
  have := b.isLt
  omega

theorem bit_low (b : BitVec 32) (i : Nat) (h : i < 32) : (b.setWidth 64).getLsbD i = b.getLsbD i := by
  rw [BitVec.getLsbD_setWidth]
  simp [show i < 64 by omega]

/-- Lines 172-220. -/
theorem checkExtended_run {c : Cpu} (hf : Faithful c) {L : Layout} {s : St} (h : s.cr0.getLsbD 31 = false) (hc : c.hasCpuid = true)
    (k : Nat) (rest : List Instr) :
    ((2 < c.maxBasic.toNat ∧ 0x80000007 ≤ c.maxExtended.toNat ∧ c.has .longMode = true ∧ c.has .page1gb = true) ∧
      ∃ s', Same L s s' ∧ exec c L k (checkExtended ++ rest) s = exec c L (k + 14) rest s') ∨
    (¬ (2 < c.maxBasic.toNat ∧ 0x80000007 ≤ c.maxExtended.toNat ∧ c.has .longMode = true ∧ c.has .page1gb = true) ∧
      exec c L k (checkExtended ++ rest) s = .halted) := by
  have l0 : c.leaf 0#32 = true := leaf_basic c _ (Nat.zero_le _)
  have l8 : c.leaf 0x80000000#32 = true := leaf_extended c _ hf.extended.1 (by decide)
  have b0 : ∀ sub, (c.cpuid 0#32 sub).eax = c.maxBasic := fun sub => by rw [leaf_eq c _ _ l0, hf.basic]
  have b8 : ∀ sub, (c.cpuid 0x80000000#32 sub).eax = c.maxExtended := fun sub => by rw [leaf_eq c _ _ l8, hf.extended.2]
  unfold checkExtended
  simp only [List.cons_append, List.nil_append]
  rw [exec_off h]
  simp only [step, Res.andThen, St.logic, St.flags, St.put, St.set, St.get, Src.val, BitVec.xor_self]
  rw [exec_off (by exact h)]
  simp only [step, Res.andThen, hc, if_true]
  rw [exec_off (by exact h)]
  simp only [step, Res.andThen, St.flags, St.get, Src.val, show (BitVec.setWidth 32 (0#64 &&& 0xFFFFFFFF#64)) = 0#32 from rfl, b0, low32]
  rw [exec_off (by exact h)]
  simp only [step, Cond.holds, cf, zf]
  by_cases h2 : 2 < c.maxBasic.toNat
  · have n1 : (decide (c.maxBasic.setWidth 64 < 2#64 &&& 0xFFFFFFFF#64) || c.maxBasic.setWidth 64 == 2#64 &&& 0xFFFFFFFF#64) = false := by
      rw [show 2#64 &&& 0xFFFFFFFF#64 = 2#64 from rfl]
      simp only [Bool.or_eq_false_iff, decide_eq_false_iff_not, BitVec.lt_def, toNat_low, beq_eq_false_iff_ne, ne_eq]
      refine ⟨fun x => ?_, fun x => ?_⟩
      · change c.maxBasic.toNat < 2 at x
        omega
      · have := congrArg BitVec.toNat x
        rw [toNat_low] at this
        change c.maxBasic.toNat = 2 at this
        omega
    simp only [n1, Bool.false_eq_true, if_false, Res.andThen]
    rw [mov_cpuid (by exact h) hc _ 0x80000000#32 rfl, exec_off (by exact h)]
    simp only [step, Res.andThen, St.flags, St.get, Src.val, reports, b8, low32]
    rw [exec_off (by exact h)]
    simp only [step, Cond.holds, cf]
    by_cases h7 : 0x80000007 ≤ c.maxExtended.toNat
    · have n2 : decide (c.maxExtended.setWidth 64 < 0x80000007#64 &&& 0xFFFFFFFF#64) = false := by
        rw [show 0x80000007#64 &&& 0xFFFFFFFF#64 = 0x80000007#64 from rfl]
        simp only [decide_eq_false_iff_not, BitVec.lt_def, toNat_low]
        change ¬ c.maxExtended.toNat < 0x80000007
        omega
      simp only [n2, Bool.false_eq_true, if_false, Res.andThen]
      have l1 : c.leaf 0x80000001#32 = true :=
        leaf_extended c _ (by change 0x80000001 ≤ _; omega) (by decide)
      rw [mov_cpuid (by exact h) hc _ 0x80000001#32 rfl, bt_jnc (by exact h), leaf_eq c _ _ l1, (hf.flat _).2.1]
      have e1 : c.has .longMode = (c.info 0x80000001#32 0#32).edx.getLsbD 29 := by
        rw [hf.has]; simp only [reported, l1, Bool.true_and]
      have e2 : c.has .page1gb = (c.info 0x80000001#32 0#32).edx.getLsbD 26 := by
        rw [hf.has]; simp only [reported, l1, Bool.true_and]
      simp only [St.get, reports, bit_low _ 29 (by decide), ← e1]
      cases hl : c.has .longMode
      · right
        exact ⟨fun x => by simp at x, rfl⟩
      · simp only [if_true]
        rw [bt_jnc (by exact h)]
        simp only [St.get, St.flags, bit_low _ 26 (by decide), ← e2]
        cases hp : c.has .page1gb
        · right
          exact ⟨fun x => by simp at x, rfl⟩
        · left
          refine ⟨⟨h2, h7, by simp, by simp⟩, _, ?_, rfl⟩
          exact ⟨rfl, rfl, rfl, rfl, rfl, rfl, rfl, fun _ _ => rfl⟩
    · right
      have n2 : decide (c.maxExtended.setWidth 64 < 0x80000007#64 &&& 0xFFFFFFFF#64) = true := by
        rw [show 0x80000007#64 &&& 0xFFFFFFFF#64 = 0x80000007#64 from rfl]
        simp only [decide_eq_true_eq, BitVec.lt_def, toNat_low]
        change c.maxExtended.toNat < 0x80000007
        omega
      simp only [n2, if_true, Res.andThen]
      exact ⟨fun x => h7 x.2.1, by simp⟩
  · right
    have n1 : (decide (c.maxBasic.setWidth 64 < 2#64 &&& 0xFFFFFFFF#64) || c.maxBasic.setWidth 64 == 2#64 &&& 0xFFFFFFFF#64) = true := by
      rw [show 2#64 &&& 0xFFFFFFFF#64 = 2#64 from rfl]
      simp only [Bool.or_eq_true, decide_eq_true_eq, BitVec.lt_def, toNat_low, beq_iff_eq]
      by_cases hx : c.maxBasic.toNat = 2
      · right
        apply BitVec.eq_of_toNat_eq
        rw [toNat_low]
        exact hx
      · left
        change c.maxBasic.toNat < 2
        omega
    simp only [n1, if_true, Res.andThen]
    exact ⟨fun x => h2 x.1, by simp⟩

/-- A comparison of the bits of a mask tells whether all of them are set. -/
theorem mask_all (b : BitVec 32) (m : BitVec 32) (bits : List Nat) (hm : ∀ i < 32, m.getLsbD i = bits.contains i) (hb : ∀ i ∈ bits, i < 32) :
    (b.setWidth 64 &&& m.setWidth 64 == m.setWidth 64) = bits.all (fun i => b.getLsbD i) := by
  rw [Bool.eq_iff_iff, beq_iff_eq, List.all_eq_true]
  constructor
  · intro h i hi
    have hl := hb i hi
    have := congrArg (fun x => x.getLsbD i) h
    simp only [BitVec.getLsbD_and, bit_low _ i hl, hm i hl] at this
    have hc : bits.contains i = true := by simpa using hi
    rw [hc, Bool.and_true] at this
    exact this
  · intro h
    apply BitVec.eq_of_getLsbD_eq
    intro i _
    by_cases hi : i < 32
    · simp only [BitVec.getLsbD_and, bit_low _ i hi, hm i hi]
      cases hc : bits.contains i
      · simp
      · rw [h i (by simpa using hc)]
        rfl
    · have e : (m.setWidth 64).getLsbD i = false := by
        rw [BitVec.getLsbD_setWidth]
        simp [BitVec.getLsbD_of_ge m i (by omega)]
      rw [BitVec.getLsbD_and, e, Bool.and_false]

/-- The features that leaf 1 reports in ECX and EDX. -/
def ecxFeatures : List Feature := [.sse3, .pclmul, .ssse3, .cmpxchg16b, .sse41, .sse42, .popcnt, .aes, .xsave, .avx, .f16c, .rdrand]
def edxFeatures : List Feature := [.fpu, .tsc, .msr, .pae, .cx8, .mmx, .fxsr, .sse, .sse2]

/-- `mov eax, mask; and r, eax; cmp r, eax; jnz`, for ECX. -/
theorem mask_ecx {c : Cpu} {L : Layout} {s : St} (h : s.cr0.getLsbD 31 = false) (m : BitVec 32) (v : BitVec 64) (hv : v = m.setWidth 64)
    (b : BitVec 32) (hb : s.ecx = b.setWidth 64) (k : Nat) (rest : List Instr) :
    ∃ s', Same L s s' ∧ s'.edx = s.edx ∧
    exec c L k (.mov .w32 .eax (.imm v) :: .and .w32 .ecx (.reg .eax) :: .cmp .ecx (.reg .eax) :: .jcc .nz :: rest) s =
      if b.setWidth 64 &&& m.setWidth 64 == m.setWidth 64 then exec c L (k + 4) rest s' else .halted := by
  subst hv
  have e : (b.setWidth 64 &&& m.setWidth 64) &&& 0xFFFFFFFF#64 = b.setWidth 64 &&& m.setWidth 64 := by rw [BitVec.and_assoc, low32]
  rw [exec_off h]
  simp only [step, Res.andThen, St.put, St.set, Src.val, low32]
  rw [exec_off (by exact h)]
  simp only [step, Res.andThen, St.logic, St.flags, St.put, St.set, St.get, Src.val, hb, e]
  rw [exec_off (by exact h)]
  simp only [step, Res.andThen, St.flags, St.get, Src.val, e, low32]
  rw [exec_off (by exact h)]
  simp only [step, Cond.holds, zf]
  cases hh : b.setWidth 64 &&& m.setWidth 64 == m.setWidth 64
  · exact ⟨s, Same.refl L s, rfl, rfl⟩
  · refine ⟨_, ?_, ?_, rfl⟩
    · exact ⟨rfl, rfl, rfl, rfl, rfl, rfl, rfl, fun _ _ => rfl⟩
    · rfl

/-- The same for EDX. -/
theorem mask_edx {c : Cpu} {L : Layout} {s : St} (h : s.cr0.getLsbD 31 = false) (m : BitVec 32) (v : BitVec 64) (hv : v = m.setWidth 64)
    (b : BitVec 32) (hb : s.edx = b.setWidth 64) (k : Nat) (rest : List Instr) :
    ∃ s', Same L s s' ∧
    exec c L k (.mov .w32 .eax (.imm v) :: .and .w32 .edx (.reg .eax) :: .cmp .edx (.reg .eax) :: .jcc .nz :: rest) s =
      if b.setWidth 64 &&& m.setWidth 64 == m.setWidth 64 then exec c L (k + 4) rest s' else .halted := by
  subst hv
  have e : (b.setWidth 64 &&& m.setWidth 64) &&& 0xFFFFFFFF#64 = b.setWidth 64 &&& m.setWidth 64 := by rw [BitVec.and_assoc, low32]
  rw [exec_off h]
  simp only [step, Res.andThen, St.put, St.set, Src.val, low32]
  rw [exec_off (by exact h)]
  simp only [step, Res.andThen, St.logic, St.flags, St.put, St.set, St.get, Src.val, hb, e]
  rw [exec_off (by exact h)]
  simp only [step, Res.andThen, St.flags, St.get, Src.val, e, low32]
  rw [exec_off (by exact h)]
  simp only [step, Cond.holds, zf]
  cases hh : b.setWidth 64 &&& m.setWidth 64 == m.setWidth 64
  · exact ⟨s, Same.refl L s, rfl⟩
  · refine ⟨_, ?_, rfl⟩
    exact ⟨rfl, rfl, rfl, rfl, rfl, rfl, rfl, fun _ _ => rfl⟩

/-- Lines 225-286. -/
theorem checkFeatures_run {c : Cpu} (hf : Faithful c) {L : Layout} {s : St} (h : s.cr0.getLsbD 31 = false) (hc : c.hasCpuid = true)
    (h2 : 2 < c.maxBasic.toNat) (h7 : 0x80000007 ≤ c.maxExtended.toNat) (k : Nat) (rest : List Instr) :
    ((ecxFeatures.all c.has = true ∧ edxFeatures.all c.has = true ∧ (c.cpuid 7#32 0#32).ebx.getLsbD 0 = true ∧ c.has .invariantTsc = true) ∧
      ∃ s', Same L s s' ∧ exec c L k (checkFeatures ++ rest) s = exec c L (k + 19) rest s') ∨
    (¬ (ecxFeatures.all c.has = true ∧ edxFeatures.all c.has = true ∧ (c.cpuid 7#32 0#32).ebx.getLsbD 0 = true ∧ c.has .invariantTsc = true) ∧
      exec c L k (checkFeatures ++ rest) s = .halted) := by
  have l1 : c.leaf 1#32 = true := leaf_basic c _ (by change 1 ≤ _; omega)
  have l7 : c.leaf 0x80000007#32 = true := leaf_extended c _ (by change 0x80000007 ≤ _; omega) (by decide)
  have e1 : ecxFeatures.all c.has = [0, 1, 9, 13, 19, 20, 23, 25, 26, 28, 29, 30].all (fun i => (c.info 1#32 0#32).ecx.getLsbD i) := by
    simp only [ecxFeatures, List.all_cons, List.all_nil, hf.has, reported, l1, Bool.true_and]
  have e2 : edxFeatures.all c.has = [0, 4, 5, 6, 8, 23, 24, 25, 26].all (fun i => (c.info 1#32 0#32).edx.getLsbD i) := by
    simp only [edxFeatures, List.all_cons, List.all_nil, hf.has, reported, l1, Bool.true_and]
  have e3 : c.has .invariantTsc = (c.info 0x80000007#32 0#32).edx.getLsbD 8 := by
    rw [hf.has]; simp only [reported, l7, Bool.true_and]
  unfold checkFeatures
  simp only [List.cons_append, List.nil_append]
  rw [mov_cpuid h hc _ 1#32 rfl, leaf_eq c _ _ l1, (hf.flat _).1]
  obtain ⟨s1, hs1, hd1, hx1⟩ := mask_ecx (c := c) (L := L) (s := reports s (c.info 1#32 0#32)) h (ecxMask.setWidth 32) ecxMask (by decide +kernel)
    (c.info 1#32 0#32).ecx rfl (k + 2)
    (.mov .w32 .eax (.imm edxMask) :: .and .w32 .edx (.reg .eax) :: .cmp .edx (.reg .eax) :: .jcc .nz :: .mov .w32 .eax (.imm 7#64) ::
      .xor .w32 .ecx (.reg .ecx) :: .cpuid :: .bt .ebx 0 :: .jcc .nc :: .mov .w32 .eax (.imm 0x80000007#64) :: .cpuid :: .bt .edx 8 :: .jcc .nc :: rest)
  rw [hx1, mask_all _ _ [0, 1, 9, 13, 19, 20, 23, 25, 26, 28, 29, 30] (by decide +kernel) (by decide), ← e1]
  cases hA : ecxFeatures.all c.has
  · right
    exact ⟨fun x => by simp at x, rfl⟩
  · have h1 : s1.cr0.getLsbD 31 = false := by rw [hs1.cr0]; exact h
    simp only [if_true]
    obtain ⟨s2, hs2, hx2⟩ := mask_edx (c := c) (L := L) (s := s1) h1 (edxMask.setWidth 32) edxMask (by decide +kernel)
      (c.info 1#32 0#32).edx (by rw [hd1]; rfl) (k + 2 + 4)
      (.mov .w32 .eax (.imm 7#64) ::
        .xor .w32 .ecx (.reg .ecx) :: .cpuid :: .bt .ebx 0 :: .jcc .nc :: .mov .w32 .eax (.imm 0x80000007#64) :: .cpuid :: .bt .edx 8 :: .jcc .nc :: rest)
    rw [hx2, mask_all _ _ [0, 4, 5, 6, 8, 23, 24, 25, 26] (by decide +kernel) (by decide), ← e2]
    cases hB : edxFeatures.all c.has
    · right
      exact ⟨fun x => by simp at x, rfl⟩
    · have h2 : s2.cr0.getLsbD 31 = false := by rw [hs2.cr0]; exact h1
      simp only [if_true]
      rw [exec_off h2]
      simp only [step, Res.andThen, St.put, St.set, Src.val]
      rw [exec_off (by exact h2)]
      simp only [step, Res.andThen, St.logic, St.flags, St.put, St.set, St.get, Src.val, BitVec.xor_self]
      rw [exec_off (by exact h2)]
      simp only [step, Res.andThen, hc, if_true]
      rw [bt_jnc (by exact h2)]
      simp only [St.get, show (0#64 &&& 0xFFFFFFFF#64).setWidth 32 = 0#32 from rfl, show (7#64 &&& 0xFFFFFFFF#64).setWidth 32 = 7#32 from rfl,
        bit_low _ 0 (by decide)]
      cases hC : (c.cpuid 7#32 0#32).ebx.getLsbD 0
      · right
        exact ⟨fun x => by simp at x, rfl⟩
      · simp only [if_true]
        rw [mov_cpuid (by exact h2) hc _ 0x80000007#32 rfl, bt_jnc (by exact h2), leaf_eq c _ _ l7, (hf.flat _).2.2]
        simp only [St.get, reports, bit_low _ 8 (by decide), ← e3]
        cases hD : c.has .invariantTsc
        · right
          exact ⟨fun x => by simp at x, rfl⟩
        · left
          refine ⟨by simp, _, ?_, rfl⟩
          refine Same.trans (same_reports L s _) (Same.trans hs1 (Same.trans hs2 ?_))
          exact ⟨rfl, rfl, rfl, rfl, rfl, rfl, rfl, fun _ _ => rfl⟩

/-- What lines 304-386 change. -/
structure Paged (L : Layout) (s s' : St) : Prop where
  cr0 : ∀ i < 32, s'.cr0.getLsbD i = (s.cr0.getLsbD i || decide (i = 31))
  cr4 : ∀ i < 32, s'.cr4.getLsbD i = (s.cr4.getLsbD i || decide (i = 5))
  efer : ∀ i, s'.efer.getLsbD i = (s.efer.getLsbD i || decide (i = 8) || decide (i = 10))
  cr3 : s'.cr3 = BitVec.ofNat 64 L.pml4
  xcr0 : s'.xcr0 = s.xcr0
  idt : s'.idt = s.idt
  cs : s'.cs = s.cs
  mem : s'.mem = wr s.mem L.pml4 4 (L.pdpt + 3)

theorem and_ones (x : BitVec 64) (i : Nat) : (x &&& 0xFFFFFFFF#64).getLsbD i = (decide (i < 32) && x.getLsbD i) := by
  rw [BitVec.getLsbD_and]
  have : (0xFFFFFFFF#64).getLsbD i = decide (i < 32) := by
    by_cases h : i < 64
    · revert i
      decide +kernel
    · rw [BitVec.getLsbD_of_ge _ _ (by omega)]
      simp
      omega
  rw [this, Bool.and_comm]

theorem one_bit (b i : Nat) (hb : b < 64) : (1#64 <<< b).getLsbD i = decide (i = b) := by
  rw [show (1#64 <<< b) = BitVec.twoPow 64 b from (BitVec.twoPow_eq 64 b).symm, BitVec.getLsbD_twoPow]
  simp only [hb, decide_true, Bool.true_and]
  exact decide_eq_decide.mpr eq_comm

theorem toNat_small (n : Nat) (h : n < 2 ^ 32) : (BitVec.ofNat 64 n).toNat = n := by
  rw [BitVec.toNat_ofNat]
  omega

theorem ofNat_low (n : Nat) (h : n < 2 ^ 32) : BitVec.ofNat 64 n &&& 0xFFFFFFFF#64 = BitVec.ofNat 64 n := by
  have := low32 (BitVec.ofNat 32 n)
  have e : (BitVec.ofNat 32 n).setWidth 64 = BitVec.ofNat 64 n := by
    apply BitVec.eq_of_toNat_eq
    simp only [BitVec.toNat_setWidth, BitVec.toNat_ofNat]
    omega
  rwa [e] at this

theorem or3 (n : Nat) (h : n % 4096 = 0) : n ||| 3 = n + 3 := by
  have := Nat.two_pow_add_eq_or_of_lt (i := 12) (b := 3) (by decide) (n / 4096)
  have e : 2 ^ 12 * (n / 4096) = n := by omega
  rw [e] at this
  exact this.symm

/-- Lines 304-386. -/
theorem enablePaging_run {c : Cpu} {L : Layout} {s : St} (hi : s.cr0.getLsbD 31 = false) (hp : s.cr0.getLsbD 0 = true)
    (hcs : s.cs.testBit 53 = false) (hpae : c.has .pae = true) (hmsr : c.has .msr = true) (hlm : c.has .longMode = true)
    (ha : L.pdpt % 4096 = 0) (hl : L.pdpt + 4096 ≤ 2 ^ 32) (hl4 : L.pml4 + 4096 ≤ 2 ^ 32) (k : Nat) (rest : List Instr) :
    ∃ s', Paged L s s' ∧ exec c L k (enablePaging ++ rest) s = exec c L (k + 15) rest s' := by
  have e1 : BitVec.ofNat 64 L.pdpt &&& 0xFFFFFFFF#64 = BitVec.ofNat 64 L.pdpt := ofNat_low _ (by omega)
  have e4 : BitVec.ofNat 64 L.pml4 &&& 0xFFFFFFFF#64 = BitVec.ofNat 64 L.pml4 := ofNat_low _ (by omega)
  have e2 : BitVec.ofNat 64 L.pdpt ||| 3#64 = BitVec.ofNat 64 (L.pdpt + 3) := by
    rw [← or3 _ ha, BitVec.ofNat_or]
  have e3 : BitVec.ofNat 64 (L.pdpt + 3) &&& 0xFFFFFFFF#64 = BitVec.ofNat 64 (L.pdpt + 3) := ofNat_low _ (by omega)
  have e5 : (BitVec.ofNat 64 (L.pdpt + 3)).toNat % 2 ^ 32 = L.pdpt + 3 := by
    rw [toNat_small _ (by omega)]
    omega
  have e6 : ((0xC0000080#64 &&& 0xFFFFFFFF#64).setWidth 32 == 0xC0000080#32) = true := rfl
  unfold enablePaging
  simp only [List.cons_append, List.nil_append]
  rw [exec_off hi]
  simp only [step, Res.andThen, St.put, St.set]
  rw [exec_off (by exact hi)]
  simp only [step, Res.andThen, St.logic, St.flags, St.put, St.set, St.get, Src.val]
  rw [exec_off (by exact hi)]
  simp only [step, St.get, hpae, Bool.not_true, Bool.and_false, Bool.false_or]
  have f9 : ∀ i < 32, i ≠ 5 → ((((s.cr4 &&& 0xFFFFFFFF#64) ||| 1#64 <<< 5) &&& 0xFFFFFFFF#64).getLsbD i && !s.cr4.getLsbD i) = false := by
    intro i hi5 hne
    simp only [and_ones, BitVec.getLsbD_or, one_bit 5 i (by decide), hi5, hne, decide_true, decide_false, Bool.true_and, Bool.or_false]
    cases s.cr4.getLsbD i <;> rfl
  simp only [f9 9 (by decide) (by decide), f9 10 (by decide) (by decide), f9 18 (by decide) (by decide), Bool.false_and, Bool.or_false,
    Bool.false_eq_true, if_false, Res.andThen]
  rw [exec_off (by exact hi)]
  simp only [step, Res.andThen, St.put, St.set, Src.val, e1]
  rw [exec_off (by exact hi)]
  simp only [step, Res.andThen, St.logic, St.flags, St.put, St.set, St.get, Src.val, e2, e3]
  rw [exec_off (by exact hi)]
  simp only [step]
  rw [translate_off (by exact hi)]
  simp only [Res.andThen, St.get, e5]
  rw [exec_off (by exact hi)]
  simp only [step, Res.andThen, St.put, St.set, Src.val, e4]
  rw [exec_off (by exact hi)]
  simp only [step, Res.andThen, St.get]
  rw [exec_off (by exact hi)]
  simp only [step, Res.andThen, St.put, St.set, Src.val]
  rw [exec_off (by exact hi)]
  simp only [step, hmsr, hlm, e6, Bool.and_self, if_true, Res.andThen]
  rw [exec_off (by exact hi)]
  simp only [step, Res.andThen, St.logic, St.flags, St.put, St.set, St.get, Src.val]
  rw [exec_off (by exact hi)]
  simp only [step, hmsr, hlm, e6, Bool.and_self, if_true, hi, Bool.false_and, Bool.false_eq_true, if_false, Res.andThen]
  rw [exec_off (by exact hi)]
  simp only [step, Res.andThen, St.put, St.set]
  rw [exec_off (by exact hi)]
  simp only [step, Res.andThen, St.logic, St.flags, St.put, St.set, St.get, Src.val]
  rw [exec_off (by exact hi)]
  simp only [step, St.get]
  have g : ∀ i < 32, ((((s.cr0 &&& 0xFFFFFFFF#64) ||| 1#64 <<< 31) &&& 0xFFFFFFFF#64).getLsbD i) = (s.cr0.getLsbD i || decide (i = 31)) := by
    intro i h32
    simp only [and_ones, BitVec.getLsbD_or, one_bit 31 i (by decide), h32, decide_true, Bool.true_and]
  have g4 : ∀ i < 32, ((((s.cr4 &&& 0xFFFFFFFF#64) ||| 1#64 <<< 5) &&& 0xFFFFFFFF#64).getLsbD i) = (s.cr4.getLsbD i || decide (i = 5)) := by
    intro i h32
    simp only [and_ones, BitVec.getLsbD_or, one_bit 5 i (by decide), h32, decide_true, Bool.true_and]
  have ge : ∀ i, (((s.efer >>> 32) <<< 32) ||| ((((s.efer &&& 0xFFFFFFFF#64) ||| 1#64 <<< 8) &&& 0xFFFFFFFF#64) &&& 0xFFFFFFFF#64)).getLsbD i =
      (s.efer.getLsbD i || decide (i = 8)) := by
    intro i
    simp only [and_ones, BitVec.getLsbD_or, one_bit 8 i (by decide), BitVec.getLsbD_shiftLeft, BitVec.getLsbD_ushiftRight]
    by_cases h32 : i < 32
    · simp [h32]
    · have : i ≠ 8 := by omega
      by_cases h64 : i < 64
      · simp [h32, h64, this, show 32 + (i - 32) = i by omega]
      · simp [h32, h64, this, BitVec.getLsbD_of_ge s.efer i (by omega)]
  simp only [g 31 (by decide), g 0 (by decide), g4 5 (by decide), ge 8, hp, hi, hcs, decide_true, Bool.or_true, Bool.true_or, Bool.not_true, Bool.not_false,
    Bool.false_eq_true, if_false, if_true, Bool.and_self, Res.andThen]
  refine ⟨_, ?_, rfl⟩
  refine ⟨g, g4, fun i => ?_, rfl, rfl, rfl, rfl, rfl⟩
  change ((((s.efer >>> 32) <<< 32) ||| ((((s.efer &&& 0xFFFFFFFF#64) ||| 1#64 <<< 8) &&& 0xFFFFFFFF#64) &&& 0xFFFFFFFF#64)) ||| 0x400#64).getLsbD i = _
  rw [BitVec.getLsbD_or, ge i, show (0x400#64) = 1#64 <<< 10 from rfl, one_bit 10 i (by decide)]

theorem rd_congr {m m' : Nat → BitVec 8} : ∀ (n a : Nat), (∀ x, a ≤ x → x < a + n → m' x = m x) → rd m' a n = rd m a n
  | 0, _, _ => rfl
  | n + 1, a, h => by
    rw [rd, rd, h a (by omega) (by omega), rd_congr n (a + 1) (fun x h1 h2 => h x (by omega) (by omega))]

/-- Nothing of what is loaded is on the stack. -/
theorem loaded_same {L : Layout} {s s' : St} (h : Loaded L s.mem) (hs : Same L s s') : Loaded L s'.mem := by
  have hst := h.stack
  have h2 := h.apart2
  have h3 := h.apart3
  have h4 := h.apart4
  refine ⟨h.stack, h.stackAligned, h.pml4Aligned, h.pdptAligned, h.stackLow, h.pml4Low, h.pdptLow, h.gdtLow, h.textLow, h.apart1, h2, h3, h4, h.apart5,
    fun i hi => ?_, fun i hi => ?_, ?_, ?_, ?_, ?_⟩
  · rw [rd_congr 8 _ (fun x h1 h2 => hs.mem x (by omega))]; exact h.pml4 i hi
  · rw [rd_congr 8 _ (fun x h1 h2 => hs.mem x (by omega))]; exact h.pdpt i hi
  · rw [rd_congr 8 _ (fun x h1 h2 => hs.mem x (by omega))]; exact h.null
  · rw [rd_congr 8 _ (fun x h1 h2 => hs.mem x (by omega))]; exact h.descriptor
  · rw [rd_congr 2 _ (fun x h1 h2 => hs.mem x (by omega))]; exact h.limit
  · rw [rd_congr 8 _ (fun x h1 h2 => hs.mem x (by omega))]; exact h.base

theorem wr_other (m : Nat → BitVec 8) (a v x : Nat) (h : x < a ∨ a + 4 ≤ x) : wr m a 4 v x = m x := by
  have : ¬ (a ≤ x ∧ x < a + 4) := by omega
  simp only [wr, if_neg this]

theorem rd_wr8 (m : Nat → BitVec 8) (a v : Nat) (h : v < 2 ^ 32) (hz : rd m a 8 = 0) : rd (wr m a 4 v) a 8 = v := by
  have e : ∀ m' : Nat → BitVec 8, rd m' a 8 = rd m' a 4 + 2 ^ 32 * rd m' (a + 4) 4 := by
    intro m'
    simp only [rd, Nat.add_assoc, Nat.reduceAdd]
    omega
  rw [e, rd_wr4 m a v h, rd_congr 4 (a + 4) (fun x h1 _ => wr_other m a v x (by omega))]
  rw [e] at hz
  have : rd m (a + 4) 4 = 0 := by omega
  rw [this]
  omega

/-- The tables once the PML4 has its entry. -/
structure Tables (L : Layout) (m : Nat → BitVec 8) : Prop where
  pml4 : ∀ i < 512, rd m (L.pml4 + 8 * i) 8 = if i = 0 then L.pdpt + 3 else 0
  pdpt : ∀ i < 512, rd m (L.pdpt + 8 * i) 8 = pdptEntries.getD i 0
  descriptor : rd m (L.gdt + 8) 8 = codeDescriptor
  limit : rd m (L.gdt + 16) 2 = 15
  base : rd m (L.gdt + 18) 8 = L.gdt

theorem tables_of {L : Layout} {m : Nat → BitVec 8} (h : Loaded L m) : Tables L (wr m L.pml4 4 (L.pdpt + 3)) := by
  have h1 := h.apart1
  have h5 := h.apart5
  have hl := h.pdptLow
  refine ⟨fun i hi => ?_, fun i hi => ?_, ?_, ?_, ?_⟩
  · by_cases h0 : i = 0
    · subst h0
      simp only [Nat.mul_zero, Nat.add_zero, if_true]
      exact rd_wr8 m _ _ (by omega) (by simpa using h.pml4 0 (by decide))
    · rw [if_neg h0, rd_congr 8 _ (fun x _ _ => wr_other m _ _ x (by omega))]
      exact h.pml4 i hi
  · rw [rd_congr 8 _ (fun x _ _ => wr_other m _ _ x (by omega))]; exact h.pdpt i hi
  · rw [rd_congr 8 _ (fun x _ _ => wr_other m _ _ x (by omega))]; exact h.descriptor
  · rw [rd_congr 2 _ (fun x _ _ => wr_other m _ _ x (by omega))]; exact h.limit
  · rw [rd_congr 8 _ (fun x _ _ => wr_other m _ _ x (by omega))]; exact h.base

theorem testBit_add3 (n : Nat) (h : n % 4096 = 0) : (n + 3).testBit 0 = true ∧ (n + 3).testBit 1 = true ∧ (n + 3).testBit 7 = false := by
  refine ⟨?_, ?_, ?_⟩ <;> simp only [Nat.testBit_eq_decide_div_mod_eq, decide_eq_true_eq, decide_eq_false_iff_not] <;> omega

theorem testBit_high (n : Nat) (h : n < 2 ^ 32) (i : Nat) (hi : 32 ≤ i) : n.testBit i = false :=
  Nat.testBit_lt_two_pow (Nat.lt_of_lt_of_le h (Nat.pow_le_pow_right (by decide) hi))

/-- The PDPT maps the first 4 GiB of its range to the first 4 GiB of memory. -/
theorem walk3 {L : Layout} {m : Nat → BitVec 8} (h : Tables L m) (nxe : Bool) (v : Nat) :
    walk m nxe 3 L.pdpt v true true =
      if v / 2 ^ 30 % 512 < 4 then some ⟨v / 2 ^ 30 % 512 * 2 ^ 30 + v % 2 ^ 30, true, true⟩ else none := by
  have hi : v / 2 ^ 30 % 512 < 512 := Nat.mod_lt _ (by decide)
  simp only [walk]
  rw [show 12 + 9 * 2 = 30 from rfl, h.pdpt _ hi]
  by_cases h4 : v / 2 ^ 30 % 512 < 4
  · rw [if_pos h4]
    generalize v / 2 ^ 30 % 512 = i at h4
    have : i = 0 ∨ i = 1 ∨ i = 2 ∨ i = 3 := by omega
    rcases this with rfl | rfl | rfl | rfl <;> cases nxe <;> rfl
  · rw [if_neg h4]
    have : pdptEntries.getD (v / 2 ^ 30 % 512) 0 = 0 := by
      rw [List.getD_eq_getElem?_getD, List.getElem?_eq_none (by change 4 ≤ _; omega)]
      rfl
    rw [this]
    rfl

/-- An entry that refers to a table of the next level. -/
theorem walk_next {m : Nat → BitVec 8} (nxe : Bool) (level table v e next : Nat) (he : rd m (table + 8 * (v / 2 ^ (12 + 9 * (level + 1)) % 512)) 8 = e)
    (t0 : e.testBit 0 = true) (t1 : e.testBit 1 = true) (t7 : e.testBit 7 = false) (t63 : e.testBit 63 = false)
    (ed : e % 2 ^ 52 / 2 ^ 12 * 2 ^ 12 = next) :
    walk m nxe (level + 2) table v true true = walk m nxe (level + 1) next v true true := by
  rw [walk]
  simp only [he, t0, t1, t7, t63, ed, Bool.not_true, Bool.and_false, Bool.or_false, Bool.false_eq_true, if_false, Bool.true_and, Bool.not_false,
    Nat.add_one_ne_zero]

theorem walk_zero {m : Nat → BitVec 8} (nxe : Bool) (level table v : Nat) (he : rd m (table + 8 * (v / 2 ^ (12 + 9 * level) % 512)) 8 = 0) (w x : Bool) :
    walk m nxe (level + 1) table v w x = none := by
  rw [walk]
  simp only [he, Nat.zero_testBit, Bool.not_false, Bool.true_or, if_true]

theorem split30 (v : Nat) (h : v < 2 ^ 32) : v / 2 ^ 30 % 512 * 2 ^ 30 + v % 2 ^ 30 = v := by
  have : v / 2 ^ 30 % 512 = v / 2 ^ 30 := by omega
  rw [this]
  have := Nat.div_add_mod v (2 ^ 30)
  rw [Nat.mul_comm] at this
  exact this

theorem entry_addr (n : Nat) (ha : n % 4096 = 0) (hl : n + 4096 ≤ 2 ^ 32) : (n + 3) % 2 ^ 52 / 2 ^ 12 * 2 ^ 12 = n := by omega

theorem walk4 {L : Layout} {m : Nat → BitVec 8} (h : Tables L m) (ha : L.pdpt % 4096 = 0) (hl : L.pdpt + 4096 ≤ 2 ^ 32) (nxe : Bool) (v : Nat)
    (hv : v < 2 ^ 64) (hc : v < 2 ^ 47 ∨ 2 ^ 64 - 2 ^ 47 ≤ v) :
    walk m nxe 4 L.pml4 v true true = if v < 2 ^ 32 then some ⟨v, true, true⟩ else none := by
  have hi : v / 2 ^ 39 % 512 < 512 := Nat.mod_lt _ (by decide)
  obtain ⟨t0, t1, t7⟩ := testBit_add3 L.pdpt ha
  have t63 : (L.pdpt + 3).testBit 63 = false := testBit_high _ (by omega) 63 (by decide)
  have ed := entry_addr L.pdpt ha hl
  by_cases h0 : v / 2 ^ 39 % 512 = 0
  · rw [walk_next nxe 2 L.pml4 v (L.pdpt + 3) L.pdpt (by
      rw [show 12 + 9 * (2 + 1) = 39 from rfl, h.pml4 _ hi, if_pos h0]) t0 t1 t7 t63 ed, walk3 h]
    by_cases h32 : v < 2 ^ 32
    · rw [if_pos h32, if_pos (by omega)]
      rw [split30 v h32]
    · rw [if_neg h32, if_neg (by omega)]
  · rw [if_neg (by omega), walk_zero]
    rw [show 12 + 9 * 3 = 39 from rfl, h.pml4 _ hi, if_neg h0]

/-- With paging on as above, the first 4 GiB are mapped to themselves and nothing else is mapped. -/
theorem translate_paged {L : Layout} {s s' : St} (hL : Loaded L s.mem) (hp : Paged L s s') (hla : s.cr4.getLsbD 12 = false) (v : Nat) :
    translate s' v = if v < 2 ^ 32 then some ⟨v, true, true⟩ else none := by
  have ht := tables_of hL
  rw [← hp.mem] at ht
  have h31 : s'.cr0.getLsbD 31 = true := by rw [hp.cr0 31 (by decide)]; simp
  have h12 : s'.cr4.getLsbD 12 = false := by rw [hp.cr4 12 (by decide), hla]; rfl
  have e3 : s'.cr3.toNat % 2 ^ 52 / 2 ^ 12 * 2 ^ 12 = L.pml4 := by
    have := hL.pml4Low
    have := hL.pml4Aligned
    rw [hp.cr3, toNat_small _ (by omega)]
    omega
  simp only [translate, h31, h12, if_true, Bool.false_eq_true, if_false, e3]
  by_cases hc : v < 2 ^ 47 ∨ (2 ^ 64 - 2 ^ 47 ≤ v ∧ v < 2 ^ 64)
  · rw [if_pos hc, walk4 ht hL.pdptAligned hL.pdptLow _ v (by omega) (by omega)]
  · rw [if_neg hc, if_neg (by omega)]

/-- With 5 levels of tables, nothing low is mapped. -/
theorem translate_la57 {L : Layout} {s s' : St} (hL : Loaded L s.mem) (hp : Paged L s s') (hla : s.cr4.getLsbD 12 = true) (v : Nat) (hv : v < 2 ^ 32) :
    translate s' v = none := by
  have ht := tables_of hL
  rw [← hp.mem] at ht
  have h31 : s'.cr0.getLsbD 31 = true := by rw [hp.cr0 31 (by decide)]; simp
  have h12 : s'.cr4.getLsbD 12 = true := by rw [hp.cr4 12 (by decide), hla]; rfl
  have e3 : s'.cr3.toNat % 2 ^ 52 / 2 ^ 12 * 2 ^ 12 = L.pml4 := by
    have := hL.pml4Low
    have := hL.pml4Aligned
    rw [hp.cr3, toNat_small _ (by omega)]
    omega
  have hl := hL.pdptLow
  have ha := hL.pdptAligned
  obtain ⟨t0, t1, t7⟩ := testBit_add3 L.pdpt ha
  have t63 : (L.pdpt + 3).testBit 63 = false := testBit_high _ (by omega) 63 (by decide)
  have ed := entry_addr L.pdpt ha hl
  simp only [translate, h31, h12, if_true, e3]
  rw [if_pos (by omega), walk_next _ 3 L.pml4 v (L.pdpt + 3) L.pdpt (by
    rw [show 12 + 9 * (3 + 1) = 48 from rfl, show v / 2 ^ 48 % 512 = 0 by omega, ht.pml4 0 (by decide), if_pos rfl]) t0 t1 t7 t63 ed, walk]
  rw [show 12 + 9 * 3 = 39 from rfl, show v / 2 ^ 39 % 512 = 0 by omega, ht.pdpt 0 (by decide)]
  cases s'.efer.getLsbD 11 <;> rfl

/-- Everything below 4 GiB is where it is. -/
def Identity (s : St) : Prop := ∀ v < 2 ^ 32, translate s v = some ⟨v, true, true⟩

theorem load_id {s : St} (h : Identity s) : ∀ (n a : Nat), a + n ≤ 2 ^ 32 → load s a n = some (rd s.mem a n)
  | 0, _, _ => rfl
  | n + 1, a, ha => by
    rw [load, h a (by omega), rd, load_id h n (a + 1) (by omega)]
    rfl

theorem exec_id {c : Cpu} {L : Layout} {s : St} (h : Identity s) (ht : ∀ k, L.text k < 2 ^ 32) (k : Nat) (i : Instr) (is : List Instr) :
    exec c L k (i :: is) s = (step c L s i).andThen (exec c L (k + 1) is) := by
  simp [exec, h _ (ht k)]

theorem identity_congr {s s' : St} (h : Identity s) (h0 : s'.cr0.getLsbD 31 = s.cr0.getLsbD 31) (h4 : s'.cr4.getLsbD 12 = s.cr4.getLsbD 12)
    (h3 : s'.cr3 = s.cr3) (he : s'.efer = s.efer) (hm : s'.mem = s.mem) : Identity s' := by
  intro v hv
  rw [← h v hv]
  simp only [translate, h0, h4, h3, he, hm]

/-- What lines 399-466 change. -/
structure Entered (L : Layout) (s s' : St) : Prop where
  cr0 : ∀ i, s'.cr0.getLsbD i = ((s.cr0.getLsbD i && !decide (i = 2)) || decide (i = 1))
  cr4 : ∀ i, s'.cr4.getLsbD i = (s.cr4.getLsbD i || decide (i = 9) || decide (i = 10) || decide (i = 18))
  xcr0 : ∀ i, s'.xcr0.getLsbD i = (s.xcr0.getLsbD i || decide (i < 3))
  efer : s'.efer = s.efer
  cr3 : s'.cr3 = s.cr3
  idt : s'.idt = s.idt
  mem : s'.mem = s.mem
  cs : s'.cs = codeDescriptor
  segs : ∀ seg, s'.segs seg = 0#16
  esp : s'.esp = BitVec.ofNat 64 L.stackBottom

/-- Lines 399-466. -/
theorem enter64_run {c : Cpu} {L : Layout} {s : St} (h : Identity s) (ht : ∀ k, L.text k < 2 ^ 32) (hT : Tables L s.mem) (hg : L.gdt + 26 ≤ 2 ^ 32)
    (hsb : L.stackBottom < 2 ^ 32) (h31 : s.cr0.getLsbD 31 = true) (h0 : s.cr0.getLsbD 0 = true) (hlma : s.efer.getLsbD 10 = true)
    (hfx : c.has .fxsr = true) (hsse : c.has .sse = true) (hxs : c.has .xsave = true) (havx : c.has .avx = true) (k : Nat) :
    ∃ s', Entered L s s' ∧ exec c L k enter64 s = .started s' := by
  have hb : rd s.mem (L.gdt + 18) 4 = L.gdt := by
    have e : rd s.mem (L.gdt + 18) 8 = rd s.mem (L.gdt + 18) 4 + 2 ^ 32 * rd s.mem (L.gdt + 18 + 4) 4 := by
      simp only [rd, Nat.add_assoc, Nat.reduceAdd]
      omega
    have := hT.base
    rw [e] at this
    omega
  have e16 : ∀ x : BitVec 64, ((x &&& 0xFFFFFFFFFFFF0000#64) ||| (0#64 &&& 0xFFFF#64)).setWidth 16 = 0#16 := by
    intro x
    rw [show 0#64 &&& 0xFFFF#64 = 0#64 from rfl, BitVec.or_zero, BitVec.setWidth_and]
    change _ &&& 0#16 = _
    exact BitVec.and_zero
  unfold enter64
  rw [exec_id h ht]
  simp only [step, load_id h 2 _ (show L.gdt + 16 + 2 ≤ 2 ^ 32 by omega), load_id h 4 _ (show L.gdt + 18 + 4 ≤ 2 ^ 32 by omega), hb, hT.limit, Res.andThen]
  rw [exec_id (by exact h) ht]
  simp only [step]
  rw [if_pos (by decide), load_id (by exact h) 8 _ (show L.gdt + 8 + 8 ≤ 2 ^ 32 by omega)]
  simp only [hT.descriptor]
  rw [if_pos (by decide)]
  simp only [Res.andThen]
  rw [exec_id (by exact h) ht]
  simp only [step, Res.andThen, St.logic, St.flags, St.put, St.set, St.get, Src.val, BitVec.xor_self]
  have hcd : Nat.testBit codeDescriptor 53 = true := by decide
  rw [exec_id (by exact h) ht]
  simp only [step, St.get, e16, St.is64, hlma, hcd, Bool.and_self, Bool.not_true, Bool.and_false, bne_self_eq_false, Bool.or_false, Bool.false_eq_true,
    if_false, Res.andThen]
  rw [exec_id (by exact h) ht]
  simp only [step, St.get, e16, St.is64, hlma, hcd, Bool.and_self, Bool.not_true, Bool.and_false, bne_self_eq_false, Bool.or_false, Bool.false_eq_true,
    if_false, Res.andThen]
  rw [exec_id (by exact h) ht]
  simp only [step, St.get, e16, St.is64, hlma, hcd, Bool.and_self, Bool.not_true, Bool.and_false, bne_self_eq_false, Bool.or_false, Bool.false_eq_true,
    if_false, Res.andThen]
  rw [exec_id (by exact h) ht]
  simp only [step, St.get, e16, St.is64, hlma, hcd, Bool.and_self, Bool.not_true, Bool.and_false, bne_self_eq_false, Bool.or_false, Bool.false_eq_true,
    if_false, Res.andThen]
  rw [exec_id (by exact h) ht]
  simp only [step, St.get, e16, St.is64, hlma, hcd, Bool.and_self, Bool.not_true, Bool.and_false, bne_self_eq_false, Bool.or_false, Bool.false_eq_true,
    if_false, Res.andThen]
  -- CR4
  rw [exec_id (by exact h) ht]
  simp only [step, Res.andThen, St.put, St.set]
  rw [exec_id (by exact h) ht]
  simp only [step, Res.andThen, St.logic, St.flags, St.put, St.set, St.get, Src.val]
  rw [exec_id (by exact h) ht]
  have b9 : ∀ i, (1#64 <<< 9 ||| 1#64 <<< 10).getLsbD i = (decide (i = 9) || decide (i = 10)) := by
    intro i
    rw [BitVec.getLsbD_or, one_bit 9 i (by decide), one_bit 10 i (by decide)]
  have k4 : ∀ i, (s.cr4 ||| (1#64 <<< 9 ||| 1#64 <<< 10)).getLsbD i = (s.cr4.getLsbD i || decide (i = 9) || decide (i = 10)) := by
    intro i
    rw [BitVec.getLsbD_or, b9, Bool.or_assoc]
  have n5 : ((s.cr4 ||| (1#64 <<< 9 ||| 1#64 <<< 10)).getLsbD 5 && !s.cr4.getLsbD 5) = false := by rw [k4]; cases s.cr4.getLsbD 5 <;> rfl
  have n18 : ((s.cr4 ||| (1#64 <<< 9 ||| 1#64 <<< 10)).getLsbD 18 && !s.cr4.getLsbD 18) = false := by rw [k4]; cases s.cr4.getLsbD 18 <;> rfl
  simp only [step, St.get, hfx, hsse, n5, n18, Bool.not_true, Bool.and_false, Bool.false_and, Bool.or_self, Bool.false_eq_true, if_false, Res.andThen]
  generalize hC4 : s.cr4 ||| (1#64 <<< 9 ||| 1#64 <<< 10) = C4 at k4
  have h' : Identity { s with cr4 := C4 } := identity_congr h rfl (by change C4.getLsbD 12 = _; rw [k4]; simp) rfl rfl rfl
  -- CR0
  rw [exec_id (by exact h') ht]
  simp only [step, Res.andThen, St.put, St.set]
  rw [exec_id (by exact h') ht]
  simp only [step, Res.andThen, St.logic, St.flags, St.put, St.set, St.get, Src.val]
  rw [exec_id (by exact h') ht]
  simp only [step, Res.andThen, St.logic, St.flags, St.put, St.set, St.get, Src.val]
  rw [exec_id (by exact h') ht]
  have k0 : ∀ i, (s.cr0 &&& ~~~(1#64 <<< 2) ||| 1#64 <<< 1).getLsbD i = ((s.cr0.getLsbD i && !decide (i = 2)) || decide (i = 1)) := by
    intro i
    rw [BitVec.getLsbD_or, BitVec.getLsbD_and, BitVec.getLsbD_not, one_bit 2 i (by decide), one_bit 1 i (by decide)]
    by_cases h64 : i < 64
    · simp [h64]
    · simp [h64, BitVec.getLsbD_of_ge s.cr0 i (by omega)]
  have c31 : (s.cr0 &&& ~~~(1#64 <<< 2) ||| 1#64 <<< 1).getLsbD 31 = true := by rw [k0, h31]; rfl
  have c0 : (s.cr0 &&& ~~~(1#64 <<< 2) ||| 1#64 <<< 1).getLsbD 0 = true := by rw [k0, h0]; rfl
  simp only [step, St.get, c31, c0, h31, if_true, Bool.not_true, Bool.false_eq_true, if_false, Res.andThen]
  generalize hC0 : s.cr0 &&& ~~~(1#64 <<< 2) ||| 1#64 <<< 1 = C0 at k0
  have h'' : Identity { s with cr4 := C4, cr0 := C0 } := identity_congr h' (by change C0.getLsbD 31 = s.cr0.getLsbD 31; rw [← hC0, c31, h31]) rfl rfl rfl rfl
  -- CR4 again
  rw [exec_id (by exact h'') ht]
  simp only [step, Res.andThen, St.put, St.set]
  rw [exec_id (by exact h'') ht]
  simp only [step, Res.andThen, St.logic, St.flags, St.put, St.set, St.get, Src.val]
  rw [exec_id (by exact h'') ht]
  have k4' : ∀ i, (C4 ||| 1#64 <<< 18).getLsbD i = (C4.getLsbD i || decide (i = 18)) := by
    intro i
    rw [BitVec.getLsbD_or, one_bit 18 i (by decide)]
  have m5 : ((C4 ||| 1#64 <<< 18).getLsbD 5 && !C4.getLsbD 5) = false := by rw [k4']; cases C4.getLsbD 5 <;> rfl
  simp only [step, St.get, hfx, hsse, hxs, m5, Bool.not_true, Bool.and_false, Bool.false_and, Bool.or_self, Bool.false_eq_true, if_false, Res.andThen]
  generalize hC5 : C4 ||| 1#64 <<< 18 = C5 at k4'
  have h3 : Identity { s with cr4 := C5, cr0 := C0 } := identity_congr h'' rfl (by change C5.getLsbD 12 = C4.getLsbD 12; rw [k4']; simp) rfl rfl rfl
  -- XCR0
  rw [exec_id (by exact h3) ht]
  simp only [step, Res.andThen, St.logic, St.flags, St.put, St.set, St.get, Src.val, BitVec.xor_self]
  rw [exec_id (by exact h3) ht]
  have ox : C5.getLsbD 18 = true := by rw [k4']; simp
  simp only [step, ox, show ((0#64).setWidth 32 == 0#32) = true from rfl, Bool.and_self, if_true, Res.andThen]
  rw [exec_id (by exact h3) ht]
  simp only [step, Res.andThen, St.logic, St.flags, St.put, St.set, St.get, Src.val]
  rw [exec_id (by exact h3) ht]
  have kx : ∀ i, ((s.xcr0 >>> 32) <<< 32 ||| ((s.xcr0 &&& 0xFFFFFFFF#64 ||| 7#64) &&& 0xFFFFFFFF#64) &&& 0xFFFFFFFF#64).getLsbD i =
      (s.xcr0.getLsbD i || decide (i < 3)) := by
    intro i
    have e7 : (7#64).getLsbD i = decide (i < 3) := by
      by_cases h64 : i < 64
      · revert i
        decide +kernel
      · rw [BitVec.getLsbD_of_ge _ _ (by omega)]
        simp
        omega
    simp only [and_ones, BitVec.getLsbD_or, e7, BitVec.getLsbD_shiftLeft, BitVec.getLsbD_ushiftRight]
    by_cases h32 : i < 32
    · simp [h32]
    · have : ¬ i < 3 := by omega
      by_cases h64 : i < 64
      · simp [h32, h64, this, show 32 + (i - 32) = i by omega]
      · simp [h32, h64, this, BitVec.getLsbD_of_ge s.xcr0 i (by omega)]
  simp only [step, ox, show ((0#64).setWidth 32 == 0#32) = true from rfl, Bool.and_self, if_true, kx, havx, show decide (0 < 3) = true from rfl,
    show decide (1 < 3) = true from rfl, Bool.or_true, Bool.not_true, Bool.and_false, Bool.or_self, Bool.false_eq_true, if_false, Res.andThen]
  rw [exec_id (by exact h3) ht]
  simp only [step, Res.andThen, St.put, St.set, Src.val, ofNat_low _ hsb]
  rw [exec_id (by exact h3) ht]
  simp only [step, Res.andThen]
  refine ⟨_, ?_, rfl⟩
  refine ⟨k0, fun i => ?_, kx, rfl, rfl, rfl, rfl, rfl, fun seg => ?_, rfl⟩
  · change C5.getLsbD i = _
    rw [k4', k4]
  · cases seg <;> rfl

end Boot

end Verif.Props
