/- What checks the repository (C98, C99). -/
import Verif.Tool.Checks

set_option autoImplicit false

namespace Verif.Props.ChecksProofs
open Verif.Checks

theorem hasWord_iff (w l : List Char) : hasWord w l = true ↔ ∃ a b, l = a ++ w ++ b := by
  induction l with
  | nil =>
    simp only [hasWord, List.isPrefixOf_iff_prefix, List.prefix_nil]
    constructor
    · rintro rfl; exact ⟨[], [], rfl⟩
    · rintro ⟨a, b, h⟩
      have := congrArg List.length h
      simp only [List.length_nil, List.length_append] at this
      exact List.length_eq_zero_iff.1 (by omega)
  | cons c cs ih =>
    simp only [hasWord, Bool.or_eq_true, List.isPrefixOf_iff_prefix, ih]
    constructor
    · rintro (⟨b, h⟩ | ⟨a, b, h⟩)
      · exact ⟨[], b, by simp [h]⟩
      · exact ⟨c :: a, b, by simp [h]⟩
    · rintro ⟨a, b, h⟩
      cases a with
      | nil => exact Or.inl ⟨b, by simp [h]⟩
      | cons d a =>
        simp only [List.cons_append, List.cons.injEq] at h
        exact Or.inr ⟨a, b, h.2⟩

theorem sources_ok {v : Verifies} {c : Call} {ss : List String} : ∀ {fs fs' : Files}, verifySources v c fs ss = (fs', true) →
    fs'.revision = fs.revision ∧ fs'.installed = fs.installed ∧ fs'.folder = fs.folder ∧
    (∀ s ∈ ss, v c.prover c.allowAssume s (fs.revision s) = true ) ∧ (∀ m ∈ c.manifests, (fs'.manifest m).isSome = true) := by
  induction ss with
  | nil =>
    intro fs fs' h
    simp only [verifySources, Prod.mk.injEq, List.all_eq_true] at h
    obtain ⟨rfl, h⟩ := h
    exact ⟨rfl, rfl, rfl, by simp, h⟩
  | cons s ss ih =>
    intro fs fs' h
    unfold verifySources at h
    split at h
    · rename_i hv
      obtain ⟨a, b, c, d, e⟩ := ih h
      refine ⟨a, b, c, ?_, e⟩
      intro x hx
      rcases List.mem_cons.1 hx with rfl | hx
      · exact hv
      · exact d x hx
    · simp at h

/-- Which manifests there are after sources were verified. -/
theorem sources_manifest {v : Verifies} {c : Call} {ss : List String} : ∀ {fs fs' : Files}, verifySources v c fs ss = (fs', true) → ∀ m,
    (∃ s ∈ ss, stem s = m ∧ fs'.manifest m = some (fs.revision s)) ∨ ((∀ s ∈ ss, stem s ≠ m) ∧ fs'.manifest m = fs.manifest m) := by
  induction ss with
  | nil =>
    intro fs fs' h m
    simp only [verifySources, Prod.mk.injEq] at h
    obtain ⟨rfl, -⟩ := h
    exact Or.inr ⟨by simp, rfl⟩
  | cons s ss ih =>
    intro fs fs' h m
    unfold verifySources at h
    split at h
    · rcases ih h m with ⟨x, hx, h1, h2⟩ | ⟨h1, h2⟩
      · exact Or.inl ⟨x, List.mem_cons_of_mem _ hx, h1, h2⟩
      · simp only at h2
        split at h2
        · rename_i hm
          exact Or.inl ⟨s, List.mem_cons_self .., hm.symm, h2⟩
        · rename_i hm
          refine Or.inr ⟨?_, h2⟩
          intro x hx
          rcases List.mem_cons.1 hx with rfl | hx
          · exact fun h => hm h.symm
          · exact h1 x hx
    · simp at h

/-- The manifest of a source that a call verified, if no other has its name. -/
theorem call_manifest {v : Verifies} {c : Call} {fs : Files} (h : (c.run v fs).2 = true) {s : String} (hs : s ∈ c.sources) (hu : ∀ x ∈ c.sources, stem x = stem s → x = s) :
    (c.run v fs).1.manifest (stem s) = some (fs.revision s) := by
  unfold Call.run at h ⊢
  split at h
  · rename_i hi
    simp only [hi, if_true]
    rcases sources_manifest (fs' := (verifySources v c fs c.sources).1) (by rw [← h]) (stem s) with ⟨x, hx, h1, h2⟩ | ⟨h1, -⟩
    · rw [h2, hu x hx h1]
    · exact absurd rfl (h1 s hs)
  · simp at h

/-- A manifest that a call does not write. -/
theorem call_keeps {v : Verifies} {c : Call} {fs : Files} (h : (c.run v fs).2 = true) {m : String} (hu : ∀ x ∈ c.sources, stem x ≠ m) :
    (c.run v fs).1.manifest m = fs.manifest m := by
  unfold Call.run at h ⊢
  split at h
  · rename_i hi
    simp only [hi, if_true]
    rcases sources_manifest (fs' := (verifySources v c fs c.sources).1) (by rw [← h]) m with ⟨x, hx, h1, -⟩ | ⟨-, h2⟩
    · exact absurd h1 (hu x hx)
    · exact h2
  · simp at h

/-- What a call does to the other parts of the files, whether it succeeds or not. -/
theorem sources_rest (v : Verifies) (c : Call) (ss : List String) : ∀ fs : Files, (verifySources v c fs ss).1.revision = fs.revision ∧
    (verifySources v c fs ss).1.installed = fs.installed ∧ (verifySources v c fs ss).1.folder = fs.folder := by
  induction ss with
  | nil => intro fs; exact ⟨rfl, rfl, rfl⟩
  | cons s ss ih =>
    intro fs
    unfold verifySources
    split
    · exact ih _
    · exact ⟨rfl, rfl, rfl⟩

theorem call_rest (v : Verifies) (c : Call) (fs : Files) : (c.run v fs).1.revision = fs.revision ∧ (c.run v fs).1.installed = fs.installed ∧ (c.run v fs).1.folder = fs.folder := by
  unfold Call.run
  split
  · exact sources_rest v c _ fs
  · exact ⟨rfl, rfl, rfl⟩

end Verif.Props.ChecksProofs

namespace Verif.Props
open Verif.Checks

/-- **C98** The exit status of verify.sh is 0 exactly if a line that is searched has the word "assume": whether a proof succeeds does not matter. -/
theorem C98_status (v : Verifies) (path download : Bool) (lines : List (List Char)) (fs : Files) :
    (verifySh v path download lines fs).status = 0 ↔ ∃ line ∈ lines, ∃ a b, line = a ++ ['a', 's', 's', 'u', 'm', 'e'] ++ b := by
  have : (verifySh v path download lines fs).status = if lines.any hasAssume then 0 else 1 := rfl
  rw [this]
  have hw : "assume".toList = ['a', 's', 's', 'u', 'm', 'e'] := by decide
  by_cases h : lines.any hasAssume = true
  · simp only [h, if_true, true_iff]
    obtain ⟨l, hl, ha⟩ := List.any_eq_true.1 h
    unfold hasAssume at ha
    rw [hw] at ha
    exact ⟨l, hl, (ChecksProofs.hasWord_iff _ l).1 ha⟩
  · simp only [h, if_false, Nat.one_ne_zero, false_iff, Bool.false_eq_true]
    rintro ⟨l, hl, ha⟩
    refine h (List.any_eq_true.2 ⟨l, hl, ?_⟩)
    unfold hasAssume
    rw [hw]
    exact (ChecksProofs.hasWord_iff _ l).2 ha

/-- **C98** With the three assumptions that the repository has (src/os/config.c:39, src/os/memory_alloc.c:26, include/os/memory.h:79) the status is 0 although no proof succeeds. -/
theorem C98_passes_without_proofs (path download : Bool) (others : List (List Char)) (fs : Files) :
    let r := verifySh (fun _ _ _ _ => false) path download (others ++ ["\t//@ assume(false);".toList, "\tassume(false);".toList, "\t//@ assume(false);".toList]) fs
    r.status = 0 ∧ r.calls = [false, false, false] := by
  refine ⟨(C98_status _ _ _ _ _).2 ⟨"\tassume(false);".toList, by simp, ['\t'], "(false);".toList, by decide⟩, ?_⟩
  simp [verifySh, Call.run, call1, call2, call3, verifySources]

/-- **C98** If all calls in a run succeed, then each of the nine sources is verified as it is now, without assumptions but for the last four, and the manifests that are
linked are those of this revision. What is missing is that the status tells whether they do (`C98_passes_without_proofs`). -/
theorem C98_calls_partial (v : Verifies) (path download : Bool) (lines : List (List Char)) (fs : Files)
    (h : (verifySh v path download lines fs).calls = [true, true, true]) :
    (∀ s ∈ ["include/proof/arith.c", "include/proof/listutils-lemmas.c", "include/proof/modulo.c"], v .redux false s (fs.revision s) = true) ∧
    (∀ s ∈ ["include/proof/bitopsutils.c", "include/proof/mod-pow2.c"], v .z3 false s (fs.revision s) = true) ∧
    (∀ s ∈ ["src/os/memory_alloc.c", "src/os/config.c", "src/structs/index_pool.c", "src/structs/map.c"], v .redux true s (fs.revision s) = true) ∧
    (∀ s ∈ ["include/proof/arith", "include/proof/listutils-lemmas", "include/proof/modulo", "include/proof/bitopsutils", "include/proof/mod-pow2"],
      (verifySh v path download lines fs).files.manifest s = some (fs.revision (s ++ ".c"))) := by
  have key : ∀ (c : Call) (fs0 : Files), (c.run v fs0).2 = true → ∀ s ∈ c.sources, v c.prover c.allowAssume s (fs0.revision s) = true := by
    intro c fs0 h
    unfold Call.run at h
    split at h
    · exact (ChecksProofs.sources_ok (fs' := (verifySources v c fs0 c.sources).1) (by rw [← h])).2.2.2.1
    · simp at h
  have hr : ∀ b, (install b fs).revision = fs.revision := by intro b; unfold install; split <;> rfl
  have hr' : (if path = true then fs else install download fs).revision = fs.revision := by split; rfl; exact hr _
  simp only [verifySh, List.cons.injEq, and_true] at h
  obtain ⟨h1, h2, h3⟩ := h
  refine ⟨?_, ?_, ?_, ?_⟩
  · intro s hs
    have := key call1 _ h1 s hs
    simpa only [call1, hr'] using this
  · intro s hs
    have := key call2 _ h2 s hs
    rw [(ChecksProofs.call_rest v call1 _).1] at this
    simpa only [call2, hr'] using this
  · intro s hs
    have := key call3 _ h3 s hs
    rw [(ChecksProofs.call_rest v call2 _).1, (ChecksProofs.call_rest v call1 _).1] at this
    simpa only [call3, hr'] using this

  · have a1 : ∀ s ∈ call1.sources, (∀ x ∈ call1.sources, stem x = stem s → x = s) ∧ (∀ x ∈ call2.sources, stem x ≠ stem s) ∧ (∀ x ∈ call3.sources, stem x ≠ stem s) := by
      decide +kernel
    have a2 : ∀ s ∈ call2.sources, (∀ x ∈ call2.sources, stem x = stem s → x = s) ∧ (∀ x ∈ call3.sources, stem x ≠ stem s) := by decide +kernel
    have b : ∀ s ∈ call1.sources ++ call2.sources, (verifySh v path download lines fs).files.manifest (stem s) = some (fs.revision s) := by
      intro s hs
      simp only [verifySh]
      rcases List.mem_append.1 hs with hs | hs
      · rw [ChecksProofs.call_keeps h3 (a1 s hs).2.2, ChecksProofs.call_keeps h2 (a1 s hs).2.1, ChecksProofs.call_manifest h1 hs (a1 s hs).1]
        simp only [hr']
      · rw [ChecksProofs.call_keeps h3 (a2 s hs).2, ChecksProofs.call_manifest h2 hs (a2 s hs).1, (ChecksProofs.call_rest v call1 _).1]
        simp only [hr']
    have c : ∀ s ∈ ["include/proof/arith", "include/proof/listutils-lemmas", "include/proof/modulo", "include/proof/bitopsutils", "include/proof/mod-pow2"],
        stem (s ++ ".c") = s ∧ s ++ ".c" ∈ call1.sources ++ call2.sources := by decide +kernel
    intro s hs
    have := b (s ++ ".c") (c s hs).2
    rwa [(c s hs).1] at this

/-- **C98** The last call can succeed although a proof it rests on fails: with the manifest of an older revision. -/
theorem C98_stale : ∃ (v : Verifies) (fs : Files), v .redux false "include/proof/arith.c" (fs.revision "include/proof/arith.c") = false ∧
    ∀ download lines, (verifySh v true download lines fs).calls = [false, true, true] := by
  refine ⟨fun _ _ s r => !(s == "include/proof/arith.c" && r == 1), ⟨fun _ => 1, fun _ => some 0, false, false⟩, by decide +kernel, ?_⟩
  intro download lines
  simp [verifySh, Call.run, call1, call2, call3, verifySources]
  decide +kernel

/-- **C98** After a download that failed, all calls of all later runs fail, as the folder is there: the script never downloads again. -/
theorem C98_download (v : Verifies) (lines : List (List Char)) (fs : Files) (hf : fs.folder = false) (downloads : List Bool) :
    let later := downloads.foldl (fun f d => (verifySh v false d lines f).files) (verifySh v false false lines fs).files
    ∀ d, (verifySh v false d lines later).calls = [false, false, false] := by
  have inv : ∀ (fs : Files) (d : Bool), fs.folder = true → fs.installed = false → (verifySh v false d lines fs).calls = [false, false, false] ∧
      (verifySh v false d lines fs).files.folder = true ∧ (verifySh v false d lines fs).files.installed = false := by
    intro fs d h1 h2
    simp [verifySh, install, h1, h2, Call.run]
  have first : (verifySh v false false lines fs).files.folder = true ∧ (verifySh v false false lines fs).files.installed = false := by
    simp [verifySh, install, hf, Call.run]
  have rest : ∀ (ds : List Bool) (f : Files), f.folder = true → f.installed = false →
      (ds.foldl (fun f d => (verifySh v false d lines f).files) f).folder = true ∧ (ds.foldl (fun f d => (verifySh v false d lines f).files) f).installed = false := by
    intro ds
    induction ds with
    | nil => intro f h1 h2; exact ⟨h1, h2⟩
    | cons d ds ih => intro f h1 h2; exact ih _ (inv f d h1 h2).2.1 (inv f d h1 h2).2.2
  intro later d
  exact (inv _ d (rest downloads _ first.1 first.2).1 (rest downloads _ first.1 first.2).2).1

/-- **C98** The lines that are printed are those that have the word, and the two before each, in order; every file that may have assumptions is searched. -/
theorem C98_printed (lines : List (List Char)) :
    printed lines = ((List.range lines.length).filter fun i => decide (∃ j, j < 3 ∧ ∃ l, lines[i + j]? = some l ∧ hasWord ['a', 's', 's', 'u', 'm', 'e'] l = true)).filterMap (fun i => lines[i]?) ∧
    ∀ s ∈ call1.sources ++ call2.sources ++ call3.sources, searched s.toList = true := by
  classical
  refine ⟨?_, by decide +kernel⟩
  have hw : ∀ l, hasAssume l = hasWord ['a', 's', 's', 'u', 'm', 'e'] l := by intro l; rfl
  induction lines with
  | nil => rfl
  | cons l ls ih =>
    have hc : (l :: ls.take 2).any hasAssume = decide (∃ j, j < 3 ∧ ∃ x, (l :: ls)[0 + j]? = some x ∧ hasWord ['a', 's', 's', 'u', 'm', 'e'] x = true) := by
      rw [Bool.eq_iff_iff, List.any_eq_true, decide_eq_true_iff]
      constructor
      · rintro ⟨x, hx, hh⟩
        rw [hw] at hh
        have : l :: ls.take 2 = (l :: ls).take 3 := rfl
        rw [this] at hx
        obtain ⟨j, hj⟩ := List.mem_iff_getElem?.1 hx
        rw [List.getElem?_take] at hj
        split at hj
        · rename_i h3; exact ⟨j, h3, x, by rw [Nat.zero_add]; exact hj, hh⟩
        · simp at hj
      · rintro ⟨j, h3, x, hx, hh⟩
        refine ⟨x, ?_, by rw [hw]; exact hh⟩
        have : l :: ls.take 2 = (l :: ls).take 3 := rfl
        rw [this]
        refine List.mem_iff_getElem?.2 ⟨j, ?_⟩
        rw [List.getElem?_take, if_pos h3]
        rwa [Nat.zero_add] at hx
    rw [printed, hc, List.length_cons, List.range_succ_eq_map, List.filter_cons, List.filter_map, ih]
    have hs : ((fun i => decide (∃ j, j < 3 ∧ ∃ x, (l :: ls)[i + j]? = some x ∧ hasWord ['a', 's', 's', 'u', 'm', 'e'] x = true)) ∘ Nat.succ) =
        fun i => decide (∃ j, j < 3 ∧ ∃ x, ls[i + j]? = some x ∧ hasWord ['a', 's', 's', 'u', 'm', 'e'] x = true) := by
      funext i
      simp only [Function.comp, Nat.succ_add, List.getElem?_cons_succ]
    rw [hs]
    split
    · simp [List.filterMap_map, Function.comp_def]
    · simp [List.filterMap_map, Function.comp_def]

/-- **C98** compile-all succeeds exactly if the last entry is not a directory that cannot be compiled: a failure of any other is lost. -/
theorem C98_compile_all (es : List Entry) (s : Nat) :
    compileAll [] = 0 ∧ compileAll (es ++ [.file]) = 0 ∧ compileAll (es ++ [.dir s]) = s := by
  simp [compileAll]

/-- **C98** All directories but the last can fail. -/
theorem C98_compile_all_wrong (n : Nat) : compileAll (List.replicate n (.dir 2) ++ [.dir 0]) = 0 := (C98_compile_all _ 0).2.2

/-- A run in which all calls succeed, which prints the context of an assumption. -/
example : (verifySh (fun _ _ _ _ => true) false true [] ⟨fun _ => 3, fun _ => none, false, false⟩).calls = [true, true, true] ∧
    printed ["a".toList, "b".toList, "c".toList, "assume(false)".toList, "d".toList] = ["b".toList, "c".toList, "assume(false)".toList] := by
  decide +kernel

namespace ChecksProofs

theorem intercalate_cons (sep a : List Char) (b : List Char) (l : List (List Char)) : List.intercalate sep (a :: b :: l) = a ++ sep ++ List.intercalate sep (b :: l) := by
  simp [List.intercalate, List.intersperse]

end ChecksProofs

/-- **C99** The list of network functions is the JSON array of their names, if there is one and no name has a space (or a quote, which `xargs` takes out). -/
theorem C99_matrix (names : List (List Char)) (h0 : names ≠ []) (hs : ∀ n ∈ names, ' ' ∉ n) :
    matrixJson names = ['['] ++ List.intercalate [','] (names.map fun n => ['"'] ++ n ++ ['"']) ++ [']'] := by
  have hn : ∀ n : List Char, ' ' ∉ n → (n.flatMap fun c => if c = ' ' then "\",\"".toList else [c]) = n := by
    intro n
    induction n with
    | nil => intro _; rfl
    | cons c cs ih =>
      intro h
      simp only [List.mem_cons, not_or] at h
      rw [List.flatMap_cons, if_neg (fun e => h.1 e.symm), ih h.2]
      rfl
  have key : ∀ (l : List (List Char)), l ≠ [] → (∀ n ∈ l, ' ' ∉ n) →
      ['"'] ++ ((List.intercalate [' '] l).flatMap fun c => if c = ' ' then "\",\"".toList else [c]) ++ ['"'] = List.intercalate [','] (l.map fun n => ['"'] ++ n ++ ['"']) := by
    intro l
    induction l with
    | nil => intro h; exact absurd rfl h
    | cons a l ih =>
      intro _ hl
      cases l with
      | nil =>
        have : List.intercalate [' '] [a] = a := by simp [List.intercalate]
        rw [this, hn a (hl a (by simp))]
        simp [List.intercalate]
      | cons b l =>
        have ih' := ih (by simp) (fun n h => hl n (by simp [List.mem_cons.1 h]))
        rw [ChecksProofs.intercalate_cons, List.map_cons, List.map_cons, ChecksProofs.intercalate_cons, ← List.map_cons (f := fun n : List Char => ['"'] ++ n ++ ['"']), ← ih']
        rw [List.flatMap_append, List.flatMap_append, hn a (hl a (by simp))]
        have : ([' '].flatMap fun c => if c = ' ' then "\",\"".toList else [c]) = ['"', ',', '"'] := by decide
        rw [this]
        simp
  unfold matrixJson
  rw [← key names h0 hs]
  have e1 : "[\"".toList = ['[', '"'] := by decide
  have e2 : "\"]".toList = ['"', ']'] := by decide
  rw [e1, e2]
  simp

/-- **C99** The workflow succeeds exactly for pushes to main and pull requests whose network functions compile, but for the router build for all four pairs of systems and drivers, and but for
dhcp_ipv4 are verified, and for which the format is right and the tests of the tool succeed. -/
theorem C99_passes (t : Trigger) (s : Steps) : (jobs t s).verify = true ↔
    (t = .pushBranch "main" ∨ t = .pullRequest) ∧ s.list = true ∧ s.lint = true ∧ s.test = true ∧ ∀ nf ∈ s.nfs, s.compile nf = true ∧
      (nf ≠ "router" → s.build nf .linux .tinynf = true ∧ s.build nf .linux .dpdk = true ∧ s.build nf .metal .tinynf = true ∧ s.build nf .dpdk .dpdk = true) ∧
      (nf ≠ "dhcp_ipv4" → s.verify nf = true) := by
  have ht : starts t = true ↔ (t = .pushBranch "main" ∨ t = .pullRequest) := by
    cases t <;> simp [starts]
  have hb : ((builds s.nfs).all fun b => s.build b.1 b.2.1 b.2.2) = true ↔ ∀ nf ∈ s.nfs, nf ≠ "router" →
      s.build nf .linux .tinynf = true ∧ s.build nf .linux .dpdk = true ∧ s.build nf .metal .tinynf = true ∧ s.build nf .dpdk .dpdk = true := by
    have one : ∀ nf : String, ([Os.linux, .metal, .dpdk].flatMap fun os => ([Net.tinynf, .dpdk].filter fun net =>
        !((os == .dpdk && net == .tinynf) || (os == .metal && net == .dpdk) || nf == "router")).map fun net => (nf, os, net)) =
        if nf = "router" then [] else [(nf, .linux, .tinynf), (nf, .linux, .dpdk), (nf, .metal, .tinynf), (nf, .dpdk, .dpdk)] := by
      intro nf
      by_cases hr : nf = "router"
      · simp [hr]
      · have hr' : (nf == "router") = false := by simpa using hr
        simp only [hr', hr, if_false]
        rfl
    simp only [builds, one, List.all_flatMap, List.all_eq_true]
    constructor
    · intro h nf hnf hr
      have := h nf hnf
      simpa [hr] using this
    · intro h nf hnf
      by_cases hr : nf = "router"
      · simp [hr]
      · simpa [hr] using h nf hnf hr
  have hv : (verified s.nfs).all s.verify = true ↔ ∀ nf ∈ s.nfs, nf ≠ "dhcp_ipv4" → s.verify nf = true := by
    simp only [verified, List.all_eq_true, List.mem_filter, bne_iff_ne, and_imp]
  simp only [jobs, Bool.and_eq_true, ht, hb, hv, List.all_eq_true]
  constructor
  · rintro ⟨⟨⟨⟨h1, h2⟩, ⟨-, ⟨-, -, h3⟩, h4⟩, h5⟩, -, h6⟩, h7⟩
    exact ⟨h1, h2, h3, h6, fun nf hnf => ⟨h4 nf hnf, h5 nf hnf, h7 nf hnf⟩⟩
  · rintro ⟨h1, h2, h3, h4, h5⟩
    exact ⟨⟨⟨⟨h1, h2⟩, ⟨⟨h1, h2⟩, ⟨⟨h1, h2⟩, h1, h3⟩, fun nf hnf => (h5 nf hnf).1⟩, fun nf hnf => (h5 nf hnf).2.1⟩, h1, h4⟩, fun nf hnf => (h5 nf hnf).2.2⟩

/-- **C99** The tool is never published: pushing a tag, which is what publishing is for, does not start the workflow. -/
theorem C99_never_published (t : Trigger) (s : Steps) : (jobs t s).publish = false := by
  cases t <;> simp [jobs, starts]

/-- **C99** A commit whose dhcp_ipv4 does not meet its specification and whose router cannot be built passes. -/
theorem C99_gaps : ∃ s : Steps, "dhcp_ipv4" ∈ s.nfs ∧ "router" ∈ s.nfs ∧ s.verify "dhcp_ipv4" = false ∧ (∀ os net, s.build "router" os net = false) ∧ (jobs .pullRequest s).verify = true := by
  refine ⟨⟨true, ["bridge", "dhcp_ipv4", "router"], true, fun _ => true, fun nf _ _ => nf != "router", true, fun nf => nf != "dhcp_ipv4", true⟩, by simp, by simp, by simp, by simp, ?_⟩
  rw [C99_passes]
  simp

/-- Two network functions of the repository. -/
example : ["nat".toList, "rust-policer".toList] ≠ [] ∧ (∀ n ∈ ["nat".toList, "rust-policer".toList], ' ' ∉ n) ∧
    matrixJson ["nat".toList, "rust-policer".toList] = "[\"nat\",\"rust-policer\"]".toList := by
  decide

end Verif.Props
