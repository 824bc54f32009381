/-
Model of what checks the repository: /repo/env/verify.sh, the target `compile-all` of /repo/Makefile:70-71, and
/repo/.github/workflows/lint-compile-verify-publish.yml.

VeriFast, wget, make and GitHub are not in /repo; what they do is given by parameters, or stated where it is used.
-/
set_option autoImplicit false

namespace Verif.Checks

/-! ### verify.sh -/

inductive Prover where
  | redux | z3
deriving DecidableEq

/-- A call of VeriFast: its prover, whether `-allow_assume` is given, the manifests and the sources. -/
structure Call where
  prover : Prover
  allowAssume : Bool
  manifests : List String
  sources : List String

/-- verify.sh:31-33. -/
def call1 : Call := ⟨.redux, false, [], ["include/proof/arith.c", "include/proof/listutils-lemmas.c", "include/proof/modulo.c"]⟩

/-- verify.sh:34-38. -/
def call2 : Call := ⟨.z3, false, ["include/proof/arith", "include/proof/listutils-lemmas", "include/proof/modulo"],
  ["include/proof/bitopsutils.c", "include/proof/mod-pow2.c"]⟩

/-- verify.sh:39-48. -/
def call3 : Call := ⟨.redux, true, ["include/proof/arith", "include/proof/listutils-lemmas", "include/proof/modulo", "include/proof/bitopsutils", "include/proof/mod-pow2"],
  ["src/os/memory_alloc.c", "src/os/config.c", "src/structs/index_pool.c", "src/structs/map.c"]⟩

/-- The files: the revision of each source, the revision of which a manifest (named without its suffix) is, and the folder `verifast`: whether it is there, and whether
it has VeriFast in it. -/
structure Files where
  revision : String → Nat
  manifest : String → Option Nat
  folder : Bool
  installed : Bool

/-- The name of the manifest of a source, without its suffix. -/
def stem (source : String) : String := (source.dropEnd 2).toString

/-- Whether VeriFast verifies a revision of a source, with a prover and with or without `-allow_assume`. -/
abbrev Verifies := Prover → Bool → String → Nat → Bool

/-- VeriFast verifies its sources one after the other, and writes the manifest of each (`-emit_vfmanifest`) until one cannot be verified; then it links them with the
manifests given, which have to be there. -/
def verifySources (v : Verifies) (c : Call) (fs : Files) : List String → Files × Bool
  | [] => (fs, c.manifests.all fun m => (fs.manifest m).isSome)
  | s :: ss =>
    if v c.prover c.allowAssume s (fs.revision s) then
      verifySources v c { fs with manifest := fun m => if m = stem s then some (fs.revision s) else fs.manifest m } ss
    else (fs, false)

/-- A call: there has to be a VeriFast. -/
def Call.run (v : Verifies) (fs : Files) (c : Call) : Files × Bool :=
  if fs.installed then verifySources v c fs c.sources else (fs, false)

/-- verify.sh:10-22, if VERIFAST_PATH is not set: `download` is whether both calls of wget and `tar` succeed. -/
def install (download : Bool) (fs : Files) : Files := if fs.folder then fs else { fs with folder := true, installed := download }

/-- Whether a line has a word. -/
def hasWord (word : List Char) : List Char → Bool
  | [] => word.isPrefixOf []
  | c :: cs => word.isPrefixOf (c :: cs) || hasWord word cs

/-- verify.sh:51, `grep -F 'assume'`. -/
def hasAssume (line : List Char) : Bool := hasWord "assume".toList line

/-- verify.sh:51, `grep -B 2`: a line is printed if it, or one of the next two, has the word. -/
def printed : List (List Char) → List (List Char)
  | [] => []
  | l :: ls => if (l :: ls.take 2).any hasAssume then l :: printed ls else printed ls

/-- verify.sh:51: whether a path is searched: those of `src/os/` itself that end in .c, and all of `src/structs/` and `include/` but manifests. -/
def searched (path : List Char) : Bool :=
  ("src/os/".toList.isPrefixOf path && ".c".toList.isSuffixOf path && !((path.drop 7).contains '/')) ||
  (("src/structs/".toList.isPrefixOf path || "include/".toList.isPrefixOf path) && !".vfmanifest".toList.isSuffixOf path)

/-- What a run of the script leaves: the files, whether each of the calls succeeded (which is only printed), and the exit status: that of `grep`, its last command, which
is 0 if it finds something. `lines` has the lines of the files that are searched. -/
structure Outcome where
  files : Files
  calls : List Bool
  status : Nat

/-- verify.sh:10-51. `path` is whether VERIFAST_PATH is set, to a folder that has VeriFast. -/
def verifySh (v : Verifies) (path download : Bool) (lines : List (List Char)) (fs : Files) : Outcome :=
  let fs0 := if path then fs else install download fs
  let r1 := Call.run v { fs0 with installed := path || fs0.installed } call1
  let r2 := Call.run v r1.1 call2
  let r3 := Call.run v r2.1 call3
  ⟨{ r3.1 with installed := fs0.installed }, [r1.2, r2.2, r3.2], if lines.any hasAssume then 0 else 1⟩

/-! ### compile-all -/

/-- An entry of nf/: a file, or a directory, with the status of compiling it. -/
inductive Entry where
  | file
  | dir (status : Nat)

/-- Makefile:70-71: the status of a loop of the shell is that of its last command; an `if` whose condition is false has status 0, and so has a loop over nothing. -/
def compileAll (es : List Entry) : Nat := es.foldl (fun _ e => match e with
  | .file => 0
  | .dir s => s) 0

/-! ### The workflow -/

/-- lint-compile-verify-publish.yml:20-26: `find`, `cut` and `xargs` give the names with a space between them, and `sed` puts `","` in place of each space. -/
def matrixJson (names : List (List Char)) : List Char :=
  "[\"".toList ++ ((List.intercalate [' '] names).flatMap fun c => if c = ' ' then "\",\"".toList else [c]) ++ "\"]".toList

/-- What can start a workflow. -/
inductive Trigger where
  | pushBranch (name : String)
  | pushTag (name : String)
  | pullRequest

/-- lint-compile-verify-publish.yml:2-5. With `branches` and without `tags`, GitHub starts nothing when a tag is pushed. -/
def starts : Trigger → Bool
  | .pushBranch b => b == "main"
  | .pushTag _ => false
  | .pullRequest => true

/-- The operating systems and drivers of :59-60. -/
inductive Os where
  | linux | metal | dpdk
deriving DecidableEq

inductive Net where
  | tinynf | dpdk
deriving DecidableEq

/-- What the steps of the jobs of a run do on a commit: whether they succeed. -/
structure Steps where
  list : Bool
  nfs : List String
  lint : Bool
  compile : String → Bool
  build : String → Os → Net → Bool
  test : Bool
  verify : String → Bool
  upload : Bool

/-- :56-67: the builds of the matrix. -/
def builds (nfs : List String) : List (String × Os × Net) :=
  nfs.flatMap fun nf => [Os.linux, .metal, .dpdk].flatMap fun os => ([Net.tinynf, .dpdk].filter fun net =>
    !((os == .dpdk && net == .tinynf) || (os == .metal && net == .dpdk) || nf == "router")).map fun net => (nf, os, net)

/-- :98-103: the network functions that are verified. -/
def verified (nfs : List String) : List String := nfs.filter fun nf => nf != "dhcp_ipv4"

/-- What came of a job: a job runs if those it needs succeeded, and its `if` is true. A job with a matrix succeeds if all its parts do. -/
structure Jobs where
  list : Bool
  lint : Bool
  compile : Bool
  build : Bool
  test : Bool
  verify : Bool
  publish : Bool

/-- :10-135. -/
def jobs (t : Trigger) (s : Steps) : Jobs :=
  let list := starts t && s.list
  let lint := starts t && s.lint
  let compile := list && lint && s.nfs.all s.compile
  let build := list && compile && (builds s.nfs).all fun b => s.build b.1 b.2.1 b.2.2
  let test := starts t && s.test
  let verify := list && build && test && (verified s.nfs).all s.verify
  let publish := test && verify && (match t with
    | .pushTag _ => true
    | _ => false) && s.upload
  ⟨list, lint, compile, build, test, verify, publish⟩

end Verif.Checks
