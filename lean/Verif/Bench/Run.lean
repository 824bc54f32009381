/- Model of env/Makefile.benchmarking:16, which writes the configuration of the devices, and of benchmarking/bench.sh. -/
import Verif.Bench.Devices

set_option autoImplicit false

namespace Verif.Bench.Run
open Verif.Bench.Devices

/-! The configuration. -/

/-- `tr ' ' '\n'`. -/
def trSpace (l : Line) : Line := l.map fun c => if c = ' ' then '\n' else c

/-- `tr ':.' ' '`: the second set is extended with its last character. -/
def trDots (l : Line) : Line := l.map fun c => if c = ':' ∨ c = '.' then ' ' else c

/-- The lines of a text that `echo` wrote, that is, with an end of line after it. -/
def linesOf (l : Line) : List Line := l.splitOn '\n'

/-- The fields of a line for `awk`; texts have no tabs. -/
def fields (l : Line) : List Line := (l.splitOn ' ').filter (· ≠ [])

/-- `$n` of `awk`. -/
def field (l : Line) (n : Nat) : Line := ((fields l)[n - 1]?).getD []

/-- env/Makefile.benchmarking:16: what is between `0x` and the next comma or space in each line, that is, the values of bus, device and function. -/
def writeConfig (nfArgs : Line) : List (Line × Line × Line) :=
  (linesOf (trSpace nfArgs)).map fun l => (field (trDots l) 1, field (trDots l) 2, field (trDots l) 3)

/-- A digit of a C constant after `0x`. -/
def hexDigit (c : Char) : Option Nat :=
  if '0' ≤ c ∧ c ≤ '9' then some (c.toNat - 48)
  else if 'a' ≤ c ∧ c ≤ 'f' then some (c.toNat - 87)
  else if 'A' ≤ c ∧ c ≤ 'F' then some (c.toNat - 55)
  else none

/-- A C constant in the initializer of a byte: without digits it is an error, and, because of `-Werror`, if it does not fit. -/
def byteConstant (l : Line) : Option Nat :=
  if l = [] then none
  else (l.foldlM (fun n c => (hexDigit c).map (16 * n + ·)) 0).bind fun n => if n < 256 then some n else none

/-- env/include/os/pci.h:12-17. -/
structure PciAddress where
  bus : Nat
  device : Nat
  function : Nat
  deriving DecidableEq

/-- env/src/os/pci.c:5, with env/Makefile:36: the array of the addresses, if it compiles. -/
def compileConfig (c : List (Line × Line × Line)) : Option (List PciAddress) :=
  c.mapM fun x => (byteConstant x.1).bind fun b => (byteConstant x.2.1).bind fun d => (byteConstant x.2.2).map fun f => ⟨b, d, f⟩

/-! The script. -/

/-- Paths are lists of names; only files are modelled, a directory is there if a file is below it. -/
abbrev Path := List String
abbrev Files := Path → Option String

/-- `rm -rf p`. -/
def remove (p : Path) (fs : Files) : Files := fun q => if p <+: q then none else fs q

/-- `*.log`: names that do not begin with a full stop. -/
def isLog (n : String) : Bool := ".log".toList.isSuffixOf n.toList && n.toList.head? != some '.'

/-- `rm -rf *.log` in the directory `d`. -/
def removeLogs (d : Path) (fs : Files) : Files := fun q =>
  match (if d <+: q then q.drop d.length else []) with
  | [] => fs q
  | n :: _ => if isLog n then none else fs q

/-- Copies the files below `src` of `a` to `dst` of `b`; other files of `b` stay. -/
def copyTree (a : Files) (src : Path) (b : Files) (dst : Path) : Files := fun q =>
  if dst <+: q then (a (src ++ q.drop dst.length)).or (b q) else b q

def write (p : Path) (t : String) (fs : Files) : Files := fun q => if q = p then some t else fs q

/-- The directory exists. -/
def IsDir (p : Path) (fs : Files) : Prop := ∃ q, p <+: q ∧ q ≠ p ∧ (fs q).isSome

/-- Where the script is (`$THIS_DIR` without its last name, and that name), where it is started, and the values of its configuration. -/
structure Setup where
  parent : Path
  base : String
  cwd : Path
  remote : Path
  log : String

/-- `$THIS_DIR`. -/
def Setup.this (s : Setup) : Path := s.parent ++ [s.base]

/-- What the commands of the script do. Times are in seconds after the network function is started in the background; `nfStart` is the time at
which its process appears, if it does. The process then stays until it is killed. `interrupt` is the time of the first Ctrl+C after the trap
is set. `tester` is what running bench-tester.sh does on the other machine, and whether it succeeds. -/
structure Env where
  cloneOk : Bool
  checkoutOk : Bool
  rsyncOk : Bool
  buildOk : Bool
  buildLog : String
  clone : Files
  checkout : Files
  nfStart : Option Nat
  initTime : Nat
  testTime : Nat
  fetchTime : Nat
  interrupt : Option Nat
  tester : Files → Bool × Files
  fetchOk : Bool

/-- How the script ends: its exit status, the files of both machines, at which times after the network function was started (if it was) it ran
`cleanup`, and the files of the other machine when bench-tester.sh ran there, if it did. -/
structure Outcome where
  status : Nat
  here : Files
  there : Files
  started : Bool
  kills : List Nat
  tested : Option Files

/-- The end of the loop of bench.sh:99-105. -/
inductive Wait where
  | found (t : Nat)
  | interrupted (t : Nat)
  | never (t : Nat)
  deriving DecidableEq

/-- A command ended at `t`: is the trap run now? -/
def trapped (e : Env) (t : Nat) : Bool := match e.interrupt with | none => false | some i => decide (i ≤ t)

/-- `pgrep` finds the process. -/
def seen (e : Env) (t : Nat) : Bool := match e.nfStart with | none => false | some s => decide (s ≤ t)

/-- bench.sh:99-105, with `n` iterations to go. -/
def waitLoop (e : Env) : Nat → Nat → Wait
  | 0, t => .never t
  | n + 1, t =>
    if trapped e (t + 1) then .interrupted (t + 1)
    else if seen e (t + 1) then .found (t + 1)
    else waitLoop e n (t + 1)

/-- bench.sh:111-129, at time `t`: `here` and `there` are the files. ssh gives an error if there is no bench-tester.sh; scp copies the folder
into `$THIS_DIR`. -/
def testAndFetch (s : Setup) (e : Env) (here there : Files) (t : Nat) : Outcome :=
  let script := there (s.remote ++ ["bench-tester.sh"])
  let r := if script.isSome then e.tester there else (false, there)
  let tested := if script.isSome then some there else none
  let t₁ := t + e.testTime
  if trapped e t₁ then ⟨1, here, r.2, true, [t₁], tested⟩
  else if r.1 then
    let t₂ := t₁ + e.fetchTime
    let here₂ := if e.fetchOk then copyTree r.2 (s.remote ++ ["results"]) here (s.this ++ ["results"]) else here
    ⟨if trapped e t₂ ∨ ¬ e.fetchOk then 1 else 0, here₂, r.2, true, [t₂], tested⟩
  else ⟨1, here, r.2, true, [t₁], tested⟩

/-- bench.sh:95-109. -/
def launch (s : Setup) (e : Env) (here there : Files) : Outcome :=
  if trapped e e.initTime then ⟨1, here, there, true, [e.initTime], none⟩
  else match waitLoop e 30 e.initTime with
    | .interrupted t => ⟨1, here, there, true, [t], none⟩
    | .never _ => ⟨1, here, there, true, [], none⟩
    | .found t => testAndFetch s e here there t

open Classical in
/-- bench.sh:58-70: the folder of MoonGen, and whether the script goes on. `clone` and `checkout` are the files that Git writes below it. -/
noncomputable def getMoongen (s : Setup) (e : Env) (here : Files) : Bool × Files :=
  if IsDir (s.this ++ ["moongen"]) here then (true, here)
  else if ¬ e.cloneOk then (false, here)
  else
    let here₁ := copyTree e.clone [] here (s.this ++ ["moongen"])
    if ¬ e.checkoutOk then (false, here₁)
    else (true, copyTree e.checkout [] (remove (s.this ++ ["moongen"]) here₁) (s.this ++ ["moongen"]))

/-- bench.sh:29-129, after the arguments and the files of the configuration have been checked. The network functions and packet generators of
earlier runs, which lines 38-48 kill, and the binding of devices (C87) are left out. rsync, as `$THIS_DIR` does not end with a slash, copies
the folder into the other one (manual of rsync). -/
noncomputable def run (s : Setup) (e : Env) (here there : Files) : Outcome :=
  let here₁ := removeLogs s.cwd (remove (s.cwd ++ ["results"]) here)
  let m := getMoongen s e here₁
  if ¬ m.1 then ⟨1, m.2, there, false, [], none⟩
  else if ¬ e.rsyncOk then ⟨1, m.2, there, false, [], none⟩
  else
    let there₂ := copyTree m.2 s.this there (s.remote ++ [s.base])
    let here₂ := write (s.this ++ [s.log]) e.buildLog m.2
    if ¬ e.buildOk then ⟨1, here₂, there₂, false, [], none⟩
    else launch s e here₂ there₂

/-- The process of the network function runs on after the script ended: it started, after each `cleanup`. -/
def Outcome.Lives (o : Outcome) (e : Env) : Prop := o.started = true ∧ ∃ t, e.nfStart = some t ∧ ∀ k ∈ o.kills, k < t

end Verif.Bench.Run
