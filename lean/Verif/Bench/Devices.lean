/- Model of benchmarking/bind-devices-to-uio.sh and benchmarking/unbind-devices.sh: lines of text that `lspci` prints and that `grep` and `cut`
select, and what writing to the files of the kernel's PCI devices does. -/
import Mathlib.Data.List.Infix

set_option autoImplicit false

namespace Verif.Bench.Devices

/-- Lines of text, without the end of line. -/
abbrev Line := List Char

structure Addr where
  domain : Nat
  bus : Nat
  device : Nat
  function : Nat
  deriving DecidableEq

def digit (n : Nat) : Char := (['0', '1', '2', '3', '4', '5', '6', '7', '8', '9', 'a', 'b', 'c', 'd', 'e', 'f'][n]?).getD '?'

/-- `83:00.0`. -/
def short (a : Addr) : Line :=
  [digit (a.bus / 16), digit (a.bus % 16), ':', digit (a.device / 16), digit (a.device % 16), '.', digit a.function]

/-- `0000:83:00.0`: the domain has at least four digits. -/
def full (a : Addr) : Line :=
  let d := Nat.toDigits 16 a.domain
  List.replicate (4 - d.length) '0' ++ d ++ ':' :: short a

/-- A device: what `lspci` prints of it before and after its driver, the description that `lspci -D` prints, and its driver. -/
structure Device where
  addr : Addr
  before : List Line
  after : List Line
  description : Line
  driver : Option Line
  deriving DecidableEq

/-- Addresses have a domain if that of some device is not zero (manual of lspci, option -D). -/
def name (ds : List Device) (a : Addr) : Line := if ds.any (fun d => decide (d.addr.domain ≠ 0)) then full a else short a

def slotText : Line := ['S', 'l', 'o', 't', ':', '\t']
def driverText : Line := ['D', 'r', 'i', 'v', 'e', 'r', ':', '\t']

/-- What `lspci -vmmk` prints of a device. -/
def record (ds : List Device) (d : Device) : List Line :=
  (slotText ++ name ds d.addr) :: (d.before ++ (d.driver.map (driverText ++ ·)).toList ++ d.after ++ [[]])

def lspciVmmk (ds : List Device) : List Line := ds.flatMap (record ds)

/-- `lspci -D`. -/
def lspciD (ds : List Device) : List Line := ds.map fun d => full d.addr ++ ' ' :: d.description

/-- `grep -F`. -/
def grepF (pat : Line) (ls : List Line) : List Line := ls.filter fun l => decide (pat <:+: l)

/-- `grep -F pat -A n`; the next `k` lines are printed because of an earlier one. The line `--` between groups is left out. -/
def grepAfter (pat : Line) (n : Nat) : Nat → List Line → List Line
  | _, [] => []
  | k, l :: ls =>
    if pat <:+: l then l :: grepAfter pat n n ls
    else match k with
      | 0 => grepAfter pat n 0 ls
      | k + 1 => l :: grepAfter pat n k ls

/-- `cut -f 2`: the text between the first two tabs, or the line if it has none. -/
def cutTab (l : Line) : Line := if '\t' ∈ l then ((l.dropWhile (· ≠ '\t')).drop 1).takeWhile (· ≠ '\t') else l

/-- `cut -d ' ' -f 1`. -/
def cutSpace (l : Line) : Line := l.takeWhile (· ≠ ' ')

/-- `$(…)`: the lines, with an end of line between two. -/
def text (ls : List Line) : Line := List.intercalate ['\n'] ls

/-- bind-devices-to-uio.sh:20 (unbind-devices.sh:9). -/
def fullPci (ds : List Device) (pci : Line) : Line := text ((grepF pci (lspciD ds)).map cutSpace)

/-- bind-devices-to-uio.sh:22 (unbind-devices.sh:8). -/
def driverOf (ds : List Device) (pci : Line) : Line :=
  text ((grepF ['D', 'r', 'i', 'v', 'e', 'r'] (grepAfter pci 10 0 (lspciVmmk ds))).map cutTab)

/-- An argument of the scripts, with or without the domain; `echo "$@"`. -/
def argument (x : Addr × Bool) : Line := if x.2 then full x.1 else short x.1
def echo (args : List (Addr × Bool)) : Line := List.intercalate [' '] (args.map argument)

def uioGeneric : Line := "uio_pci_generic".toList
def uioDrivers : List Line := ["igb_uio".toList, "vfio-pci".toList, uioGeneric]

/-- Writing the address to `driver/unbind`; nothing happens if there is no such device or it has no driver. -/
def unbind (path : Line) (ds : List Device) : List Device := ds.map fun d => if full d.addr = path then { d with driver := none } else d

/-- Writing the name of the driver to `driver_override` and the address to its `bind`: binds a device without driver. -/
def bindGeneric (path : Line) (ds : List Device) : List Device :=
  ds.map fun d => if full d.addr = path ∧ d.driver = none then { d with driver := some uioGeneric } else d

/-- bind-devices-to-uio.sh:19-41: one pass of the loop. -/
def bindOne (args : List (Addr × Bool)) (ds : List Device) (pci : Line) : List Device :=
  if driverOf ds pci ∈ uioDrivers then
    if ¬ pci <:+: echo args then unbind (fullPci ds pci) ds else ds
  else
    if pci <:+: echo args then bindGeneric (fullPci ds pci) (unbind (fullPci ds pci) ds) else ds

/-- bind-devices-to-uio.sh:18-42. -/
def bindDevices (args : List (Addr × Bool)) (ds : List Device) : List Device :=
  (ds.map fun d => name ds d.addr).foldl (bindOne args) ds

/-- unbind-devices.sh:7-12. -/
def unbindOne (args : List (Addr × Bool)) (ds : List Device) (pci : Line) : List Device :=
  if pci <:+: echo args then
    if driverOf ds pci ≠ [] then unbind (fullPci ds pci) ds else ds
  else ds

/-- unbind-devices.sh:6-13. -/
def unbindDevices (args : List (Addr × Bool)) (ds : List Device) : List Device :=
  (ds.map fun d => name ds d.addr).foldl (unbindOne args) ds

end Verif.Bench.Devices
