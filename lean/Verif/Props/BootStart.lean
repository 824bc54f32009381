import Verif.Props.Boot

set_option autoImplicit false

namespace Verif.Props

namespace BootStart

open Verif.Boot Boot

/-- The checks of lines 89-286. -/
def Passes (c : Cpu) : Prop :=
  c.hasCpuid = true ∧ (2 < c.maxBasic.toNat ∧ 0x80000007 ≤ c.maxExtended.toNat ∧ c.has .longMode = true ∧ c.has .page1gb = true) ∧
    (ecxFeatures.all c.has = true ∧ edxFeatures.all c.has = true ∧ (c.cpuid 7#32 0#32).ebx.getLsbD 0 = true ∧ c.has .invariantTsc = true)

theorem checks_run {c : Cpu} (hf : Faithful c) {L : Layout} {s : St} (hL : Loaded L s.mem) (hi : Initial s) :
    (Passes c ∧ ∃ s1, Same L s s1 ∧ exec c L 0 code s = exec c L 44 (enablePaging ++ enter64) s1) ∨
    (¬ Passes c ∧ exec c L 0 code s = .halted) := by
  have hassoc : code = checkCpuid ++ (checkExtended ++ (checkFeatures ++ (enablePaging ++ enter64))) := by
    simp only [code, List.append_assoc]
  rw [hassoc]
  obtain ⟨hno, hyes⟩ := checkCpuid_run (c := c) (s := s) hi.paging hL.stack hL.stackLow 0 (checkExtended ++ (checkFeatures ++ (enablePaging ++ enter64)))
  cases hc : c.hasCpuid
  · exact .inr ⟨fun x => (by rw [x.1] at hc; cases hc), hno hc⟩
  · obtain ⟨s1, hs1, hx1⟩ := hyes hc
    rw [hx1]
    have p1 : s1.cr0.getLsbD 31 = false := by rw [hs1.cr0]; exact hi.paging
    rcases checkExtended_run hf p1 hc (0 + 11) (checkFeatures ++ (enablePaging ++ enter64)) with ⟨hE, s2, hs2, hx2⟩ | ⟨hE, hx2⟩
    · rw [hx2]
      have p2 : s2.cr0.getLsbD 31 = false := by rw [hs2.cr0]; exact p1
      rcases checkFeatures_run hf p2 hc hE.1 hE.2.1 (0 + 11 + 14) (enablePaging ++ enter64) with ⟨hF, s3, hs3, hx3⟩ | ⟨hF, hx3⟩
      · exact .inl ⟨⟨hc, hE, hF⟩, s3, hs1.trans (hs2.trans hs3), hx3⟩
      · exact .inr ⟨fun x => hF x.2.2, hx3⟩
    · exact .inr ⟨fun x => hE x.2.1, hx2⟩

/-- How the state at the call of `_start` relates to the one at the start. -/
structure Final (L : Layout) (s s' : St) : Prop where
  cr0 : ∀ i < 32, s'.cr0.getLsbD i = (((s.cr0.getLsbD i || decide (i = 31)) && !decide (i = 2)) || decide (i = 1))
  cr4 : ∀ i < 32, s'.cr4.getLsbD i = (s.cr4.getLsbD i || decide (i = 5) || decide (i = 9) || decide (i = 10) || decide (i = 18))
  xcr0 : ∀ i, s'.xcr0.getLsbD i = (s.xcr0.getLsbD i || decide (i < 3))
  efer : ∀ i, s'.efer.getLsbD i = (s.efer.getLsbD i || decide (i = 8) || decide (i = 10))
  idt : s'.idt = s.idt
  cs : s'.cs = codeDescriptor
  segs : ∀ seg, s'.segs seg = 0#16
  esp : s'.esp = BitVec.ofNat 64 L.stackBottom
  pages : ∀ v, translate s' v = if v < 2 ^ 32 then some ⟨v, true, true⟩ else none

theorem passes_features {c : Cpu} (h : Passes c) : ∀ f, f ≠ .fsgsbase → c.has f = true := by
  obtain ⟨_, ⟨_, _, h1, h2⟩, h3, h4, _, h5⟩ := h
  simp only [ecxFeatures, edxFeatures, List.all_cons, List.all_nil, Bool.and_true, Bool.and_eq_true] at h3 h4
  obtain ⟨a1, a2, a3, a4, a5, a6, a7, a8, a9, a10, a11, a12⟩ := h3
  obtain ⟨b1, b2, b3, b4, b5, b6, b7, b8, b9⟩ := h4
  intro f hf
  cases f <;> first | assumption | exact absurd rfl hf

theorem started_final {c : Cpu} {L : Layout} {s s1 : St} (hL : Loaded L s.mem) (hi : Initial s) (hp : Passes c) (hs : Same L s s1)
    (hla : s.cr4.getLsbD 12 = false) : ∃ s', Final L s s' ∧ exec c L 44 (enablePaging ++ enter64) s1 = .started s' := by
  have hh := passes_features hp
  have hL1 := loaded_same hL hs
  obtain ⟨s2, hs2, hx2⟩ := enablePaging_run (c := c) (s := s1) (by rw [hs.cr0]; exact hi.paging) (by rw [hs.cr0]; exact hi.protection)
    (by rw [hs.cs]; exact hi.cs) (hh .pae (by decide)) (hh .msr (by decide)) (hh .longMode (by decide)) hL.pdptAligned hL.pdptLow hL.pml4Low 44 enter64
  have hla1 : s1.cr4.getLsbD 12 = false := by rw [hs.cr4]; exact hla
  have htr := translate_paged hL1 hs2 hla1
  have hid : Identity s2 := fun v hv => by rw [htr v, if_pos hv]
  have hT : Tables L s2.mem := by rw [hs2.mem]; exact tables_of hL1
  obtain ⟨s3, hs3, hx3⟩ := enter64_run (c := c) hid hL.textLow hT hL.gdtLow hL.stackLow (by rw [hs2.cr0 31 (by decide)]; simp)
    (by rw [hs2.cr0 0 (by decide), hs.cr0, hi.protection]; rfl) (by rw [hs2.efer]; simp) (hh .fxsr (by decide)) (hh .sse (by decide))
    (hh .xsave (by decide)) (hh .avx (by decide)) (44 + 15)
  refine ⟨s3, ⟨fun i h => ?_, fun i h => ?_, fun i => ?_, fun i => ?_, ?_, hs3.cs, hs3.segs, hs3.esp, fun v => ?_⟩, by rw [hx2, hx3]⟩
  · rw [hs3.cr0, hs2.cr0 i h, hs.cr0]
  · rw [hs3.cr4, hs2.cr4 i h, hs.cr4]
  · rw [hs3.xcr0, hs2.xcr0, hs.xcr0]
  · rw [hs3.efer, hs2.efer, hs.efer]
  · rw [hs3.idt, hs2.idt, hs.idt]
  · rw [← htr v]
    have h31 : s3.cr0.getLsbD 31 = s2.cr0.getLsbD 31 := by rw [hs3.cr0]; simp
    have h12 : s3.cr4.getLsbD 12 = s2.cr4.getLsbD 12 := by rw [hs3.cr4]; simp
    simp only [translate, h31, h12, hs3.cr3, hs3.efer, hs3.mem]

theorem la57_fault {c : Cpu} {L : Layout} {s s1 : St} (hL : Loaded L s.mem) (hi : Initial s) (hp : Passes c) (hs : Same L s s1)
    (hla : s.cr4.getLsbD 12 = true) : exec c L 44 (enablePaging ++ enter64) s1 = .fault := by
  have hh := passes_features hp
  have hL1 := loaded_same hL hs
  obtain ⟨s2, hs2, hx2⟩ := enablePaging_run (c := c) (s := s1) (by rw [hs.cr0]; exact hi.paging) (by rw [hs.cr0]; exact hi.protection)
    (by rw [hs.cs]; exact hi.cs) (hh .pae (by decide)) (hh .msr (by decide)) (hh .longMode (by decide)) hL.pdptAligned hL.pdptLow hL.pml4Low 44 enter64
  have hla1 : s1.cr4.getLsbD 12 = true := by rw [hs.cr4]; exact hla
  rw [hx2]
  unfold enter64
  rw [exec, translate_la57 hL1 hs2 hla1 _ (hL.textLow _)]

/-- The leaf of FSGSBASE exists on the processor. -/
theorem fsgsbase_eq {c : Cpu} (hf : Faithful c) (h7 : 7 ≤ c.maxBasic.toNat) : c.has .fsgsbase = (c.cpuid 7#32 0#32).ebx.getLsbD 0 := by
  have l7 := leaf_basic c 7#32 h7
  rw [hf.has, leaf_eq c _ _ l7]
  simp only [reported, l7, Bool.true_and]

theorem passes_iff {c : Cpu} (hf : Faithful c) (h7 : 7 ≤ c.maxBasic.toNat) : Passes c ↔ c.hasCpuid = true ∧ ∀ f, c.has f = true := by
  constructor
  · intro h
    refine ⟨h.1, fun f => ?_⟩
    by_cases hff : f = .fsgsbase
    · rw [hff, fsgsbase_eq hf h7]
      exact h.2.2.2.2.1
    · exact passes_features h f hff
  · rintro ⟨hc, h⟩
    have hx : 0x80000007 ≤ c.maxExtended.toNat := by
      have := h .invariantTsc
      rw [hf.has] at this
      simp only [Bool.and_eq_true, Cpu.leaf, reported, Bool.or_eq_true, decide_eq_true_eq, BitVec.le_def] at this
      have hb := hf.basicLow
      rw [BitVec.lt_def] at hb
      change c.maxBasic.toNat < 0x80000000 at hb
      rcases this.1 with x | x
      · change 0x80000007 ≤ c.maxBasic.toNat at x
        omega
      · exact x.2
    refine ⟨hc, ⟨by omega, hx, h _, h _⟩, ?_, ?_, ?_, h _⟩
    · rw [List.all_eq_true]; exact fun f _ => h f
    · rw [List.all_eq_true]; exact fun f _ => h f
    · rw [← fsgsbase_eq hf h7]; exact h _

/-! ### A machine -/

/-- A processor whose highest basic leaf is `m`, with every feature that its leaves can report; `low` is what its highest leaf has in EBX. -/
def cpu (m : BitVec 32) (low : BitVec 32) : Cpu where
  hasCpuid := true
  maxBasic := m
  maxExtended := 0x80000008#32
  info := fun leaf _ =>
    if leaf = 0#32 then ⟨m, 0#32, 0#32, 0#32⟩
    else if leaf = 0x80000000#32 then ⟨0x80000008#32, 0#32, 0#32, 0#32⟩
    else if leaf = m then ⟨0#32, low, 0xFFFFFFFF#32, 0xFFFFFFFF#32⟩
    else ⟨0xFFFFFFFF#32, 0xFFFFFFFF#32, 0xFFFFFFFF#32, 0xFFFFFFFF#32⟩
  has := fun f => f != .fsgsbase || (decide (7#32 ≤ m) && (m != 7#32 || low.getLsbD 0))

/-- Where its boot loader put the program. -/
def layout : Layout where
  stackTop := 0x110000
  stackBottom := 0x210000
  pml4 := 0x103000
  pdpt := 0x104000
  gdt := 0x105000
  text := fun k => 0x101000 + k % 4096

/-- What it put there: the page tables and the descriptors, least significant bytes first. -/
def memory : Nat → BitVec 8 := fun a =>
  if 0x104000 ≤ a ∧ a < 0x104020 then BitVec.ofNat 8 (pdptEntries.getD ((a - 0x104000) / 8) 0 / 256 ^ ((a - 0x104000) % 8))
  else if 0x105008 ≤ a ∧ a < 0x105010 then BitVec.ofNat 8 (codeDescriptor / 256 ^ (a - 0x105008))
  else if a = 0x105010 then 15#8
  else if 0x105012 ≤ a ∧ a < 0x10501A then BitVec.ofNat 8 (0x105000 / 256 ^ (a - 0x105012))
  else 0#8

theorem loaded : Loaded layout memory := by
  refine ⟨rfl, rfl, rfl, rfl, by decide, by decide, by decide, by decide, fun k => ?_, by decide, by decide, by decide, by decide, by decide, ?_, ?_, ?_, ?_,
    ?_, ?_⟩
  · change 0x101000 + k % 4096 < 2 ^ 32
    omega
  all_goals decide +kernel

/-- The machine when the program starts: CR0 and the table of handlers are given. -/
def boot (cr0 : BitVec 64) (idt : Nat × Nat) : St where
  eax := 0x36d76289#64
  ebx := 0#64
  ecx := 0#64
  edx := 0#64
  esp := 0#64
  eflags := 2#32
  cr0 := cr0
  cr3 := 0#64
  cr4 := 0#64
  efer := 0#64
  xcr0 := 1#64
  gdtBase := 0
  gdtLimit := 0
  idt := idt
  cs := 0x00CF9A000000FFFF
  segs := fun _ => 16#16
  mem := memory

theorem initial (cr0 : BitVec 64) (idt : Nat × Nat) (h0 : cr0.getLsbD 0 = true) (h31 : cr0.getLsbD 31 = false) : Initial (boot cr0 idt) :=
  ⟨h0, h31, by change Nat.testBit 0x00CF9A000000FFFF 53 = false; decide⟩

theorem faithful7 : Faithful (cpu 13#32 1#32) := by
  refine ⟨fun _ => rfl, ⟨by decide, fun _ => rfl⟩, by decide, fun _ => ⟨rfl, rfl, rfl⟩, fun f => ?_⟩
  cases f <;> rfl

theorem faithful6 : Faithful (cpu 6#32 1#32) := by
  refine ⟨fun _ => rfl, ⟨by decide, fun _ => rfl⟩, by decide, fun _ => ⟨rfl, rfl, rfl⟩, fun f => ?_⟩
  cases f <;> rfl

end BootStart

open Verif.Boot BootStart in
/-- **C69 (starting without an operating system), what holds when `_start` is called.** Whatever the boot loader left in the
registers and wherever it put the program, if the code reaches the call of `_start` then the processor supports everything that boot.asm lists (lines
9-32), the mode is the 64-bit one with a present code segment of level 0 and null selectors otherwise, exactly the first 4 GiB
are mapped, each address to itself and with all permissions, SSE and AVX are enabled, and the stack pointer is the aligned
end of a stack of 1 MiB in mapped memory.
Partial: FSGSBASE (line 22) is guaranteed only if the processor has leaf 7 (`C69_fsgsbase_wrong`); the bit of CR0 that disables SSE and AVX
instructions until a task is switched is what it was at the start (`C69_ts_wrong`); the table of handlers is what it was at the start (`C69_idt_wrong`);
and the code segment is not marked readable (line 33), which 64-bit mode ignores. -/
theorem C69_started_partial (c : Cpu) (hf : Faithful c) (L : Layout) (s s' : St) (hL : Loaded L s.mem) (hi : Initial s)
    (h : exec c L 0 code s = .started s') :
    c.hasCpuid = true ∧ (∀ f, f ≠ .fsgsbase → c.has f = true) ∧ (7 ≤ c.maxBasic.toNat → c.has .fsgsbase = true) ∧
    -- 64-bit mode, paging
    s'.efer.getLsbD 10 = true ∧ s'.cr0.getLsbD 31 = true ∧ s'.cr0.getLsbD 0 = true ∧ s'.cr4.getLsbD 5 = true ∧
    -- code segment: 64-bit, present, code, level 0; not readable
    (s'.cs.testBit 53 = true ∧ s'.cs.testBit 54 = false ∧ s'.cs.testBit 47 = true ∧ s'.cs.testBit 44 = true ∧ s'.cs.testBit 43 = true ∧
      s'.cs.testBit 45 = false ∧ s'.cs.testBit 46 = false ∧ s'.cs.testBit 41 = false) ∧
    (∀ seg, s'.segs seg = 0#16) ∧
    (∀ v, translate s' v = if v < 2 ^ 32 then some ⟨v, true, true⟩ else none) ∧
    -- SSE: no emulation, OSFXSR, OSXMMEXCPT; AVX: OSXSAVE, and the states of the x87, SSE and AVX registers
    (s'.cr0.getLsbD 2 = false ∧ s'.cr0.getLsbD 1 = true ∧ s'.cr4.getLsbD 9 = true ∧ s'.cr4.getLsbD 10 = true) ∧
    (s'.cr4.getLsbD 18 = true ∧ s'.xcr0.getLsbD 0 = true ∧ s'.xcr0.getLsbD 1 = true ∧ s'.xcr0.getLsbD 2 = true) ∧
    s'.cr0.getLsbD 3 = s.cr0.getLsbD 3 ∧
    (s'.esp.toNat = L.stackBottom ∧ L.stackBottom % 16 = 0 ∧ L.stackTop + 2 ^ 20 = L.stackBottom) ∧
    s'.idt = s.idt := by
  rcases checks_run hf hL hi with ⟨hp, s1, hs1, hx⟩ | ⟨_, hx⟩
  · cases hla : s.cr4.getLsbD 12
    · obtain ⟨s2, hF, hx2⟩ := started_final (c := c) hL hi hp hs1 hla
      rw [hx, hx2] at h
      cases h
      have hsl := hL.stackLow
      refine ⟨hp.1, passes_features hp, fun h7 => ?_, ?_, ?_, ?_, ?_, ?_, hF.segs, hF.pages, ?_, ?_, ?_, ?_, hF.idt⟩
      · rw [fsgsbase_eq hf h7]
        exact hp.2.2.2.2.1
      · rw [hF.efer]; simp
      · rw [hF.cr0 31 (by decide)]; simp
      · rw [hF.cr0 0 (by decide), hi.protection]; rfl
      · rw [hF.cr4 5 (by decide)]; simp
      · rw [hF.cs]; decide
      · rw [hF.cr0 2 (by decide), hF.cr0 1 (by decide), hF.cr4 9 (by decide), hF.cr4 10 (by decide)]; simp
      · rw [hF.cr4 18 (by decide), hF.xcr0, hF.xcr0, hF.xcr0]; simp
      · rw [hF.cr0 3 (by decide)]; simp
      · exact ⟨by rw [hF.esp]; exact Boot.toNat_small _ hsl, hL.stackAligned, hL.stack.symm⟩
    · rw [hx, la57_fault hL hi hp hs1 hla] at h
      cases h
  · rw [hx] at h
    cases h

open Verif.Boot BootStart in
/-- **C69, which processors it accepts.** On a processor that has leaf 7, and if 5-level paging is not enabled, the code calls `_start` exactly
if CPUID exists and all features are supported, and otherwise halts: it never faults. -/
theorem C69_outcome (c : Cpu) (hf : Faithful c) (h7 : 7 ≤ c.maxBasic.toNat) (L : Layout) (s : St) (hL : Loaded L s.mem) (hi : Initial s)
    (hla : s.cr4.getLsbD 12 = false) :
    ((c.hasCpuid = true ∧ ∀ f, c.has f = true) → ∃ s', exec c L 0 code s = .started s') ∧
    (¬ (c.hasCpuid = true ∧ ∀ f, c.has f = true) → exec c L 0 code s = .halted) := by
  rw [← passes_iff hf h7]
  rcases checks_run hf hL hi with ⟨hp, s1, hs1, hx⟩ | ⟨hn, hx⟩
  · obtain ⟨s2, _, hx2⟩ := started_final (c := c) hL hi hp hs1 hla
    exact ⟨fun _ => ⟨s2, by rw [hx, hx2]⟩, fun hn => absurd hp hn⟩
  · exact ⟨fun hp => absurd hp hn, fun _ => hx⟩

open Verif.Boot BootStart in
example : Faithful (cpu 13#32 1#32) ∧ 7 ≤ (cpu 13#32 1#32).maxBasic.toNat ∧ Loaded layout (boot 0x11#64 (0, 0)).mem ∧ Initial (boot 0x11#64 (0, 0)) ∧
    (boot 0x11#64 (0, 0)).cr4.getLsbD 12 = false ∧ (cpu 13#32 1#32).hasCpuid = true ∧ ∀ f, (cpu 13#32 1#32).has f = true :=
  ⟨faithful7, by decide, loaded, initial _ _ rfl rfl, rfl, rfl, fun f => by cases f <;> rfl⟩

open Verif.Boot BootStart in
example : ∃ s', exec (cpu 13#32 1#32) layout 0 code (boot 0x11#64 (0, 0)) = .started s' :=
  (C69_outcome _ faithful7 (by decide) _ _ loaded (initial _ _ rfl rfl) rfl).1 ⟨rfl, fun f => by cases f <;> rfl⟩

open Verif.Boot BootStart in
/-- **C69, the three outcomes.** In all cases that the assumptions allow, the code halts, or faults, or calls `_start`; it
faults only if 5-level paging is enabled at the start, which the assumptions do not exclude, and then it does not call `_start`. -/
theorem C69_three_outcomes (c : Cpu) (hf : Faithful c) (L : Layout) (s : St) (hL : Loaded L s.mem) (hi : Initial s) :
    (exec c L 0 code s = .halted ∨ exec c L 0 code s = .fault ∨ ∃ s', exec c L 0 code s = .started s') ∧
    (exec c L 0 code s = .fault → s.cr4.getLsbD 12 = true) ∧
    (s.cr4.getLsbD 12 = true → ∀ s', exec c L 0 code s ≠ .started s') := by
  rcases checks_run hf hL hi with ⟨hp, s1, hs1, hx⟩ | ⟨hn, hx⟩
  · cases hla : s.cr4.getLsbD 12
    · obtain ⟨s2, _, hx2⟩ := started_final (c := c) hL hi hp hs1 hla
      rw [hx, hx2]
      exact ⟨.inr (.inr ⟨s2, rfl⟩), fun h => (by cases h), fun h => (by cases h)⟩
    · rw [hx, la57_fault hL hi hp hs1 hla]
      exact ⟨.inr (.inl rfl), fun _ => rfl, fun _ s' h => by cases h⟩
  · rw [hx]
    exact ⟨.inl rfl, fun h => (by cases h), fun _ s' h => by cases h⟩

open Verif.Boot BootStart in
/-- **C69, FSGSBASE (line 22) is not guaranteed**: lines 172-179 check that there are more leaves than 2, not that there is leaf 7, and CPUID returns for
a leaf that does not exist what the highest leaf holds. On a processor with 6 leaves, one of which has the bit that is looked at, `_start` is called
although the processor does not support FSGSBASE. -/
theorem C69_fsgsbase_wrong : ∃ (c : Cpu) (L : Layout) (s s' : St), Faithful c ∧ Loaded L s.mem ∧ Initial s ∧
    c.has .fsgsbase = false ∧ exec c L 0 code s = .started s' := by
  have hf := faithful6
  have hi := initial 0x11#64 (0, 0) rfl rfl
  have hL : Loaded layout (boot 0x11#64 (0, 0)).mem := loaded
  rcases checks_run hf hL hi with ⟨hp, s1, hs1, hx⟩ | ⟨hn, _⟩
  · obtain ⟨s2, _, hx2⟩ := started_final (c := cpu 6#32 1#32) hL hi hp hs1 rfl
    exact ⟨cpu 6#32 1#32, layout, boot 0x11#64 (0, 0), s2, hf, hL, hi, rfl, by rw [hx, hx2]⟩
  · exact absurd ⟨rfl, ⟨by decide, by decide, rfl, rfl⟩, rfl, rfl, rfl, rfl⟩ hn

open Verif.Boot BootStart in
/-- **C69, "SSE and AVX are enabled" (line 36) is not guaranteed**: bit 3 of CR0 ("task switched") makes the instructions of both fault, and neither the
assumptions nor the code clear it. -/
theorem C69_ts_wrong : ∃ (c : Cpu) (L : Layout) (s s' : St), Faithful c ∧ Loaded L s.mem ∧ Initial s ∧ (∀ f, c.has f = true) ∧
    exec c L 0 code s = .started s' ∧ s'.cr0.getLsbD 3 = true := by
  have hf := faithful7
  have hi := initial 0x19#64 (0, 0) rfl rfl
  have hL : Loaded layout (boot 0x19#64 (0, 0)).mem := loaded
  obtain ⟨s', hs'⟩ := (C69_outcome _ hf (by decide) _ _ hL hi rfl).1 ⟨rfl, fun f => by cases f <;> rfl⟩
  have h3 := C69_started_partial _ hf _ _ s' hL hi hs'
  refine ⟨_, _, _, s', hf, hL, hi, fun f => by cases f <;> rfl, hs', ?_⟩
  rw [h3.2.2.2.2.2.2.2.2.2.2.2.2.1]
  rfl

open Verif.Boot BootStart in
/-- **C69, "the IDT is invalid so that every interrupt or exception causes a triple fault" (lines 38-39) is not guaranteed**: no
instruction loads the register of that table, so that it is the one of the boot loader, whatever that is. -/
theorem C69_idt_wrong (idt : Nat × Nat) : ∃ (c : Cpu) (L : Layout) (s s' : St), Faithful c ∧ Loaded L s.mem ∧ Initial s ∧ (∀ f, c.has f = true) ∧
    exec c L 0 code s = .started s' ∧ s'.idt = idt := by
  have hf := faithful7
  have hi := initial 0x11#64 idt rfl rfl
  have hL : Loaded layout (boot 0x11#64 idt).mem := loaded
  obtain ⟨s', hs'⟩ := (C69_outcome _ hf (by decide) _ _ hL hi (show (0#64).getLsbD 12 = false from rfl)).1 ⟨rfl, fun f => by cases f <;> rfl⟩
  have h3 := C69_started_partial _ hf _ _ s' hL hi hs'
  exact ⟨_, _, _, s', hf, hL, hi, fun f => by cases f <;> rfl, hs', h3.2.2.2.2.2.2.2.2.2.2.2.2.2.2⟩

open Verif.Boot in
/-- **C69, the headers that boot loaders look for.** The numbers of the first header, and the first four of the second, add up to 0 in 32 bits, as
boot loaders require; and the length that the second one states is its own. -/
theorem C69_multiboot :
    multiboot1.sum = 0#32 ∧ ((multiboot2 24).take 4).sum = 0#32 ∧ (multiboot2 24)[2]? = some (BitVec.ofNat 32 (4 * (multiboot2 24).length)) := by
  refine ⟨by decide, by decide, by decide⟩

end Verif.Props
