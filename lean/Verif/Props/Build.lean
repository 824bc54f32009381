/- How programs are put together (C101). -/
import Verif.Env.Build
import Mathlib.Tactic.Common
import Mathlib.Tactic.IntervalCases

set_option autoImplicit false

namespace Verif.Props.BuildP
open Verif.Build

theorem substC_length (l : List Char) : (substC l).length = l.length := by
  induction l using substC.induct with
  | case1 => simp [substC]
  | case2 => simp [substC]
  | case3 x y r h ih => simp [substC, h, ih]
  | case4 x y r h ih => simp only [substC, h, if_false, List.length_cons]; simpa using ih

theorem substC_mem {l : List Char} {c : Char} (hc : c ≠ 'o') (h : c ∈ substC l) : c ∈ l := by
  induction l using substC.induct with
  | case1 => simp [substC] at h
  | case2 => simpa [substC] using h
  | case3 x y r h' ih =>
    simp only [substC, h', and_self, if_true, List.mem_cons] at h
    rcases h with rfl | rfl | h
    · simp [h']
    · exact absurd rfl hc
    · simp [ih h]
  | case4 x y r h' ih =>
    simp only [substC, h', if_false, List.mem_cons] at h
    rcases h with rfl | h
    · simp
    · exact List.mem_cons_of_mem _ (ih h)

theorem mem_substC {l : List Char} {c : Char} (hc : c ≠ 'c') (h : c ∈ l) : c ∈ substC l := by
  induction l using substC.induct with
  | case1 => simp at h
  | case2 => simpa [substC] using h
  | case3 x y r h' ih =>
    simp only [substC, h', and_self, if_true, List.mem_cons] at h ⊢
    rcases h with rfl | rfl | h
    · simp
    · exact absurd rfl hc
    · simp [ih h]
  | case4 x y r h' ih =>
    simp only [substC, h', if_false]
    rcases List.mem_cons.1 h with rfl | h
    · simp
    · exact List.mem_cons_of_mem _ (ih h)

theorem substC_append (a : List Char) {ch : Char} (b : List Char) (h : ch ≠ 'c') : substC (a ++ ch :: b) = substC a ++ substC (ch :: b) := by
  induction a using substC.induct with
  | case1 => simp [substC]
  | case2 x => simp [substC, h]
  | case3 x y r h' ih => simp [substC, h', ih]
  | case4 x y r h' ih =>
    simp only [List.cons_append, substC, h', if_false]
    rw [← List.cons_append, ih]

theorem substC_cons {ch : Char} (b : List Char) (h : ch ≠ '.') : substC (ch :: b) = ch :: substC b := by
  cases b with
  | nil => simp [substC]
  | cons y r => simp [substC, h]

theorem substC_clean {l : List Char} (h : ¬ ['.', 'c'] <:+: l) : substC l = l := by
  induction l using substC.induct with
  | case1 => simp [substC]
  | case2 => simp [substC]
  | case3 x y r h' ih => exact absurd ⟨[], r, by simp [h']⟩ h
  | case4 x y r h' ih =>
    simp only [substC, h', if_false]
    rw [ih]
    rintro ⟨s, t, e⟩
    exact h ⟨x :: s, t, by simp [← e]⟩

theorem substC_dirty {l : List Char} (h : ['.', 'c'] <:+: l) : substC l ≠ l := by
  induction l using substC.induct with
  | case1 => simp at h
  | case2 x =>
    obtain ⟨s, t, e⟩ := h
    have := congrArg List.length e
    simp at this
    omega
  | case3 x y r h' ih => simp [substC, h']
  | case4 x y r h' ih =>
    simp only [substC, h', if_false, ne_eq, List.cons.injEq, true_and]
    apply ih
    obtain ⟨s, t, e⟩ := h
    cases s with
    | nil => simp only [List.nil_append, List.cons_append, List.cons.injEq] at e; exact absurd ⟨e.1.symm, e.2.1.symm⟩ h'
    | cons z s => simp only [List.cons_append, List.cons.injEq] at e; exact ⟨s, t, e.2⟩

theorem substC_intercalate (srcs : List (List Char)) : substC ([' '].intercalate srcs) = [' '].intercalate (srcs.map substC) := by
  induction srcs with
  | nil => simp [substC]
  | cons a as ih =>
    cases as with
    | nil => simp
    | cons b bs =>
      rw [List.intercalate_cons_cons, List.map_cons, List.map_cons, List.intercalate_cons_cons, ← List.map_cons, ← ih]
      simp only [List.append_assoc, List.singleton_append]
      rw [substC_append _ _ (by decide), substC_cons _ (by decide)]

theorem splitOn_noSep (l : List Char) : ∀ w ∈ l.splitOn ' ', ' ' ∉ w := by
  induction l with
  | nil => simp
  | cons x xs ih =>
    intro w hw
    rw [List.splitOn_cons_eq_if_modifyHead] at hw
    split at hw
    · rcases List.mem_cons.1 hw with rfl | hw
      · simp
      · exact ih w hw
    · rename_i hx
      cases hs : xs.splitOn ' ' with
      | nil => rw [hs] at hw; simp at hw
      | cons v vs =>
        rw [hs] at hw ih
        simp only [List.modifyHead_cons, List.mem_cons] at hw
        rcases hw with rfl | hw
        · have := ih v (by simp)
          simp only [List.mem_cons, not_or]
          exact ⟨by rintro rfl; simp at hx, this⟩
        · exact ih w (by simp [hw])

/-- Some word is not empty if the text has a character that is not a space. -/
theorem splitOn_nonempty {l : List Char} {c : Char} (hc : c ≠ ' ') (h : c ∈ l) : ∃ w ∈ l.splitOn ' ', w ≠ [] := by
  by_contra hno
  push Not at hno
  have key : ∀ ws : List (List Char), (∀ w ∈ ws, w = []) → c ∉ [' '].intercalate ws := by
    intro ws
    induction ws with
    | nil => simp
    | cons a as ih =>
      intro hw
      cases as with
      | nil => simp [hw a (by simp)]
      | cons b bs =>
        rw [List.intercalate_cons_cons, hw a (by simp)]
        simp only [List.nil_append, List.singleton_append, List.mem_cons, not_or]
        exact ⟨hc, ih fun w h' => hw w (List.mem_cons_of_mem _ h')⟩
  have := key _ hno
  rw [List.intercalate_splitOn] at this
  exact this h

theorem mapM_some {α β : Type} (g : α → Option β) (f : β → α) (l : List β) (h : ∀ x ∈ l, g (f x) = some x) : (l.map f).mapM g = some l := by
  induction l with
  | nil => rfl
  | cons a as ih => simp [h a (by simp), ih fun x hx => h x (by simp [hx])]

theorem mapM_none {α β : Type} (g : α → Option β) (l : List α) (h : ∃ x ∈ l, g x = none) : l.mapM g = none := by
  induction l with
  | nil => simp at h
  | cons a as ih =>
    rw [List.mapM_cons]
    cases ha : g a with
    | none => rfl
    | some b =>
      obtain ⟨x, hx, hg⟩ := h
      rcases List.mem_cons.1 hx with rfl | hx
      · rw [ha] at hg; simp at hg
      · rw [ih ⟨x, hx, hg⟩]; rfl

theorem objects_eq {srcs : List (List Char)} (hne : srcs ≠ []) (hs : ∀ s ∈ srcs, ' ' ∉ s ∧ s ≠ []) : objects srcs = srcs.map substC := by
  unfold objects
  rw [substC_intercalate, List.splitOn_intercalate]
  · rw [List.filter_eq_self]
    intro w hw
    obtain ⟨s, h1, rfl⟩ := List.mem_map.1 hw
    have := (hs s h1).2
    simp only [ne_eq, decide_not, Bool.not_eq_true', decide_eq_false_iff_not]
    intro h
    have := substC_length s
    rw [h] at this
    simp only [List.length_nil] at this
    exact (hs s h1).2 (List.length_eq_zero_iff.1 this.symm)
  · intro w hw
    obtain ⟨s, h1, rfl⟩ := List.mem_map.1 hw
    exact fun h => (hs s h1).1 (substC_mem (by decide) h)
  · simpa using hne

end Verif.Props.BuildP

namespace Verif.Props
open Verif.Build

/-- The path of a C file in a directory: no space, and `.c` only at its end. -/
def CPath (n : List Char) : Prop := ∃ stem : List Char, n = stem ++ ['.', 'c'] ∧ ' ' ∉ stem ∧ ¬ ['.', 'c'] <:+: stem

namespace BuildP

theorem substC_src (dir : List Char) {n stem : List Char} (h : n = stem ++ ['.', 'c']) (hc : ¬ ['.', 'c'] <:+: stem) :
    substC (dir ++ '/' :: n) = substC dir ++ '/' :: stem ++ ['.', 'o'] := by
  subst h
  rw [substC_append _ _ (by decide), substC_cons _ (by decide), substC_append _ _ (by decide), substC_clean hc]
  simp [substC]

theorem made (files : List (List Char)) (p : List Char) : madeFrom files (p ++ ['.', 'o']) =
    if p ++ ['.', 'c'] ∈ files then some (p ++ ['.', 'c']) else none := by
  have e : (p ++ ['.', 'o']).dropLast ++ ['c'] = p ++ ['.', 'c'] := by
    have : p ++ ['.', 'o'] = (p ++ ['.']) ++ ['o'] := by simp
    rw [this, List.dropLast_concat]; simp
  unfold madeFrom
  rw [e]
  simp [List.suffix_append]

end BuildP

/-- C101: wherever the repository lies, the sources of the runtime are compiled, each into its object, if and only if the path of the directory has neither a space
nor `.c`. (What is missing is that any directory will do: `C101_renamed`.) Only the files in the directory are looked at. -/
theorem C101_compiles_partial (dir : List Char) (names files : List (List Char)) (hne : names ≠ []) (hn : ∀ n ∈ names, CPath n)
    (hf : ∀ f ∈ files, ∃ r : List Char, f = dir ++ '/' :: r) (hin : ∀ n ∈ names, dir ++ '/' :: n ∈ files) :
    compile files (inDir dir names) = if ' ' ∉ dir ∧ ¬ ['.', 'c'] <:+: dir then some (names.map fun n => dir ++ '/' :: n) else none := by
  by_cases hsp : ' ' ∈ dir
  · rw [if_neg (by simp [hsp])]
    apply BuildP.mapM_none
    obtain ⟨n, ns, rfl⟩ := List.exists_cons_of_ne_nil hne
    obtain ⟨w, hw, hw0⟩ := BuildP.splitOn_nonempty (l := substC ([' '].intercalate (inDir dir (n :: ns)))) (c := '/') (by decide) (by
      apply BuildP.mem_substC (by decide)
      cases ns with
      | nil => simp [inDir]
      | cons m ms => simp only [inDir, List.map_cons, List.intercalate_cons_cons]; simp)
    refine ⟨w, by simp only [objects, List.mem_filter]; exact ⟨hw, by simpa using hw0⟩, ?_⟩
    unfold madeFrom
    rw [if_neg]
    rintro ⟨-, h⟩
    obtain ⟨r, hr⟩ := hf _ h
    have h1 : ' ' ∈ w.dropLast ++ ['c'] := by rw [hr]; simp [hsp]
    simp only [List.mem_append, List.mem_singleton] at h1
    rcases h1 with h1 | h1
    · exact BuildP.splitOn_noSep _ w hw (List.dropLast_subset _ h1)
    · exact absurd h1 (by decide)
  · have hobj : objects (inDir dir names) = (inDir dir names).map substC := by
      apply BuildP.objects_eq
      · simpa [inDir] using hne
      · intro s hs
        obtain ⟨n, h1, rfl⟩ := List.mem_map.1 hs
        obtain ⟨stem, rfl, h2, -⟩ := hn n h1
        refine ⟨?_, by simp⟩
        simp [hsp, h2]
    by_cases hc : ['.', 'c'] <:+: dir
    · rw [if_neg (by simp [hc])]
      apply BuildP.mapM_none
      obtain ⟨n, ns, rfl⟩ := List.exists_cons_of_ne_nil hne
      obtain ⟨stem, rfl, h2, h3⟩ := hn n (by simp)
      refine ⟨substC (dir ++ '/' :: (stem ++ ['.', 'c'])), by rw [hobj]; simp [inDir], ?_⟩
      rw [BuildP.substC_src dir rfl h3, BuildP.made, if_neg]
      intro h
      obtain ⟨r, hr⟩ := hf _ h
      rw [List.append_assoc] at hr
      have := List.append_inj_left hr (BuildP.substC_length dir)
      exact BuildP.substC_dirty hc this
    · rw [if_pos ⟨hsp, hc⟩]
      unfold compile
      rw [hobj]
      apply BuildP.mapM_some
      intro s hs
      obtain ⟨n, h1, rfl⟩ := List.mem_map.1 hs
      obtain ⟨stem, rfl, h2, h3⟩ := hn n h1
      have := hin _ h1
      rw [BuildP.substC_src dir rfl h3, BuildP.made, BuildP.substC_clean hc]
      rw [show dir ++ '/' :: stem ++ ['.', 'c'] = dir ++ '/' :: (stem ++ ['.', 'c']) by simp, if_pos this]

/-- C101: network functions are compiled in their own directory, so that its path does not matter. -/
theorem C101_nf_compiles (names : List (List Char)) (hne : names ≠ []) (hn : ∀ n ∈ names, CPath n) : compile names names = some names := by
  have hobj : objects names = names.map substC := by
    apply BuildP.objects_eq hne
    intro s hs
    obtain ⟨stem, rfl, h2, -⟩ := hn s hs
    exact ⟨by simp [h2], by simp⟩
  unfold compile
  rw [hobj]
  apply BuildP.mapM_some
  intro s hs
  obtain ⟨stem, rfl, h2, h3⟩ := hn s hs
  rw [BuildP.substC_append _ _ (by decide), BuildP.substC_clean h3]
  have : substC ['.', 'c'] = ['.', 'o'] := by simp [substC]
  rw [this, BuildP.made, if_pos hs]

/-- C101: a directory in which the programs cannot be compiled. -/
theorem C101_renamed : objects (inDir "/home/me/klint.copy/env".toList ["src/os/pci.c".toList]) = ["/home/me/klint.oopy/env/src/os/pci.o".toList] ∧
    compile (inDir "/home/me/klint.copy/env".toList ["src/os/pci.c".toList]) (inDir "/home/me/klint.copy/env".toList ["src/os/pci.c".toList]) = none := by
  constructor <;> decide +kernel

/-- C101: a library `libnf.so` is linked as a shared one; an object `libnf.o` is linked as a static one if and only if the path of its directory does not have
`.so`. -/
theorem C101_dynamic_partial (dir : List Char) : dynamic (dir ++ "/libnf.so".toList) = true ∧
    (dynamic (dir ++ "/libnf.o".toList) = false ↔ ¬ ['.', 's', 'o'] <:+: dir) := by
  refine ⟨?_, ?_⟩
  · unfold dynamic
    exact decide_eq_true ⟨dir ++ "/libnf".toList, [], by simp⟩
  · unfold dynamic
    rw [decide_eq_false_iff_not, not_iff_not]
    constructor
    · rintro ⟨s, t, e⟩
      have hl := congrArg List.length e
      simp only [List.length_append, List.length_cons, List.length_nil] at hl
      rw [show ("/libnf.o".toList).length = 8 by decide] at hl
      have g : ∀ i, i < 3 → (dir ++ "/libnf.o".toList)[s.length + i]? = ['.', 's', 'o'][i]? := by
        intro i hi
        rw [← e, List.append_assoc, List.getElem?_append_right (by omega), List.getElem?_append_left (by simp; omega)]
        congr 1; omega
      by_cases hd : s.length + 3 ≤ dir.length
      · refine ⟨s, dir.drop (s.length + 3), ?_⟩
        have h1 := congrArg (List.take (s.length + 3)) e
        rw [List.take_append_of_le_length (by simp), List.take_append_of_le_length hd] at h1
        rw [List.take_of_length_le (by simp)] at h1
        rw [h1, List.take_append_drop]
      · exfalso
        have g2 := g 1 (by omega)
        have g0 := g 0 (by omega)
        by_cases h2 : dir.length ≤ s.length + 1
        · rw [List.getElem?_append_right h2] at g2
          obtain ⟨k, hk⟩ : ∃ k, s.length + 1 - dir.length = k := ⟨_, rfl⟩
          have hk8 : k < 8 := by omega
          rw [hk] at g2
          revert g2
          interval_cases k <;> decide
        · have g3 := g 2 (by omega)
          rw [List.getElem?_append_right (by omega), show s.length + 2 - dir.length = 0 by omega] at g3
          exact absurd g3 (by decide)
    · rintro ⟨s, t, e⟩
      exact ⟨s, t ++ "/libnf.o".toList, by rw [← e]; simp⟩

/-- What a list of sources defines. -/
def defined (us : List Src) : List String := us.flatMap (·.defines)

private def everywhere (p : Os → Net → Nf → Bool → Bool → Bool) : Bool :=
  [Os.linux, .metal, .dpdk].all fun os => [Net.tinynf, .dpdk].all fun net =>
    [Nf.nop, .bridge, .firewall, .nat, .policer, .maglev, .router, .dhcp, .rustPolicer].all fun nf =>
      [false, true].all fun debug => [false, true].all fun dyn => p os net nf debug dyn

private theorem of_everywhere {p : Os → Net → Nf → Bool → Bool → Bool} (h : everywhere p = true) (os : Os) (net : Net) (nf : Nf) (debug dyn : Bool) :
    p os net nf debug dyn = true := by
  simp only [everywhere, List.all_eq_true] at h
  exact h os (by cases os <;> simp) net (by cases net <;> simp) nf (by cases nf <;> simp) debug (by cases debug <;> simp) dyn (by cases dyn <;> simp)

private def linksB (os : Os) (net : Net) (nf : Nf) (debug dyn : Bool) : Bool :=
  match program os net nf debug dyn with
  | none => true
  | some us => nf == .router || (os == .metal && !(net == .tinynf && nf != .rustPolicer)) ||
    decide ((defined us).Nodup ∧ "main" ∈ defined us ∧ ∀ u ∈ us, (∀ s ∈ u.needs, s ∈ defined us) ∧ ∀ l ∈ u.libs, l ∈ libs os net)

private theorem linksB_all : everywhere linksB = true := by decide +kernel

/-- C101: in every program that the makefiles allow, everything that is used is defined, and once, and the libraries that are needed are there; but for the
router (`C101_router`), and for DPDK or Rust without an operating system (`C101_metal`). -/
theorem C101_links_partial (os : Os) (net : Net) (nf : Nf) (debug dyn : Bool) (us : List Src) (h : program os net nf debug dyn = some us) (hr : nf ≠ .router)
    (hm : os = .metal → net = .tinynf ∧ nf ≠ .rustPolicer) :
    (defined us).Nodup ∧ "main" ∈ defined us ∧ ∀ u ∈ us, (∀ s ∈ u.needs, s ∈ defined us) ∧ ∀ l ∈ u.libs, l ∈ libs os net := by
  have k := of_everywhere linksB_all os net nf debug dyn
  simp only [linksB, h, Bool.or_eq_true, decide_eq_true_eq] at k
  rcases k with (k | k) | k
  · exact absurd (eq_of_beq k) hr
  · simp only [Bool.and_eq_true, beq_iff_eq, Bool.not_eq_true', Bool.and_eq_false_iff, beq_eq_false_iff_ne, bne_eq_false_iff_eq] at k
    obtain ⟨h1, h2⟩ := hm k.1
    rcases k.2 with k | k
    · exact absurd h1 k
    · exact absurd k h2
  · exact k

/-- C101: the sources of a program have paths as `C101_compiles_partial` asks, so that all of them are compiled if and only if the path of the directory has neither
a space nor `.c`. -/
theorem C101_program_compiles (os : Os) (net : Net) (nf : Nf) (debug dyn : Bool) (us : List Src) (h : program os net nf debug dyn = some us) (dir : List Char)
    (files : List (List Char)) (hf : ∀ f ∈ files, ∃ r : List Char, f = dir ++ '/' :: r) (hin : ∀ u ∈ us.dropLast, dir ++ '/' :: u.path.toList ∈ files) :
    (compile files (inDir dir (us.dropLast.map (·.path.toList)))).isSome = true ↔ ' ' ∉ dir ∧ ¬ ['.', 'c'] <:+: dir := by
  have k : everywhere (fun os net nf debug dyn => match program os net nf debug dyn with
    | none => true
    | some us => decide (us.dropLast ≠ [] ∧ ∀ u ∈ us.dropLast, u.path.toList = u.path.toList.dropLast.dropLast ++ ['.', 'c'] ∧
        ' ' ∉ u.path.toList.dropLast.dropLast ∧ ¬ ['.', 'c'] <:+: u.path.toList.dropLast.dropLast)) = true := by decide +kernel
  have k := of_everywhere k os net nf debug dyn
  simp only [h, decide_eq_true_eq] at k
  rw [C101_compiles_partial dir _ files (fun e => k.1 (List.map_eq_nil_iff.1 e)) (by
    intro n hn
    obtain ⟨u, hu, rfl⟩ := List.mem_map.1 hn
    exact ⟨_, k.2 u hu⟩) hf (by
    intro n hn
    obtain ⟨u, hu, rfl⟩ := List.mem_map.1 hn
    exact hin u hu)]
  split
  · rename_i e; exact ⟨fun _ => e, fun _ => rfl⟩
  · rename_i e; exact ⟨fun e' => absurd e' (by simp), fun e' => absurd e' e⟩

/-- C101: the router uses functions that no program has. -/
theorem C101_router (os : Os) (net : Net) (debug dyn : Bool) (us : List Src) (h : program os net .router debug dyn = some us) :
    ∃ u ∈ us, ∀ s ∈ ["lpm_alloc", "lpm_set", "lpm_search"], s ∈ u.needs ∧ s ∉ defined us := by
  have k : everywhere (fun os net _ debug dyn => match program os net .router debug dyn with
    | none => true
    | some us => decide (∃ u ∈ us, ∀ s ∈ ["lpm_alloc", "lpm_set", "lpm_search"], s ∈ u.needs ∧ s ∉ defined us)) = true := by decide +kernel
  have k := of_everywhere k os net .nop debug dyn
  simp only [h, decide_eq_true_eq] at k
  exact k

/-- C101: the makefiles allow DPDK, and the policer in Rust, without an operating system, although they need the C library; and shared libraries. -/
theorem C101_metal : (∀ nf, ∃ us, program .metal .dpdk nf false true = some us ∧ ∃ u ∈ us, Lib.libc ∈ u.libs ∧ Lib.libc ∉ libs .metal .dpdk) ∧
    (∀ dyn, ∃ us, program .metal .tinynf .rustPolicer false dyn = some us ∧ ∃ u ∈ us, Lib.libc ∈ u.libs ∧ Lib.libc ∉ libs .metal .tinynf) := by
  constructor
  · intro nf
    refine ⟨(program .metal .dpdk nf false true).getD [], ?_, ?_⟩ <;> cases nf <;> decide +kernel
  · intro dyn
    refine ⟨(program .metal .tinynf .rustPolicer false dyn).getD [], ?_, ?_⟩ <;> cases dyn <;> decide +kernel

/-- C101: a program is refused exactly for these reasons. -/
theorem C101_refused (os : Os) (net : Net) (nf : Nf) (debug dyn : Bool) : program os net nf debug dyn = none ↔
    (os = .dpdk ∧ net = .tinynf) ∨ (os = .metal ∧ debug = true) ∨ (net = .dpdk ∧ dyn = false) := by
  cases os <;> cases net <;> cases debug <;> cases dyn <;> simp [program, split, osSrcs, netSrcs]

/-- C101: every function that a network function calls in nf_init or nf_handle has a model in that phase of the verification of libraries. -/
theorem C101_modelled (nf : Nf) (debug : Bool) : (∀ s ∈ initNeeds nf, s ∈ libnfInit) ∧ (∀ s ∈ handleNeeds debug nf, s ∈ libnfHandle) ∧
    verifies libnfInit (initNeeds nf) = true ∧ verifies libnfHandle (handleNeeds debug nf) = true := by
  cases nf <;> cases debug <;> decide +kernel

/-- C101: of what the driver and the network function use of the split sources, everything but os_init, the variables of the clock and os_debug has a model when a
whole program is verified. -/
theorem C101_hooked (os : Os) (nf : Nf) (debug dyn : Bool) (sp ns : List Src) (h1 : split os .tinynf debug = some sp) (h2 : netSrcs .tinynf debug dyn = some ns) :
    ∀ u ∈ nfLib nf debug :: ns, ∀ s ∈ u.needs, s ∈ defined sp → s ∈ nfInit ∨ s ∈ nfHandle ∨ s ∈ ["os_init", "cpu_freq_numerator", "cpu_freq_denominator"] ∨
      (debug = true ∧ s = "os_debug") := by
  have k : everywhere (fun os _ nf debug dyn => match split os .tinynf debug, netSrcs .tinynf debug dyn with
    | some sp, some ns => decide (∀ u ∈ nfLib nf debug :: ns, ∀ s ∈ u.needs, s ∈ defined sp → s ∈ nfInit ∨ s ∈ nfHandle ∨
        s ∈ ["os_init", "cpu_freq_numerator", "cpu_freq_denominator"] ∨ (debug = true ∧ s = "os_debug"))
    | _, _ => true) = true := by decide +kernel
  have k := of_everywhere k os .tinynf nf debug dyn
  simp only [h1, h2, decide_eq_true_eq] at k
  exact k

/-- The program of the NAT with TinyNF on Linux has 14 parts. -/
example : ∃ us, program .linux .tinynf .nat false true = some us ∧ us.length = 14 :=
  ⟨(program .linux .tinynf .nat false true).getD [], by decide +kernel, by decide +kernel⟩

/-- In a usual directory the objects are those of the sources. -/
example : compile (inDir "/home/me/klint/env".toList ["src/os/pci.c".toList, "src/os/config.c".toList])
    (inDir "/home/me/klint/env".toList ["src/os/pci.c".toList, "src/os/config.c".toList]) =
      some ["/home/me/klint/env/src/os/pci.c".toList, "/home/me/klint/env/src/os/config.c".toList] := by
  decide +kernel

end Verif.Props
