/-
Model of how a program is put together: /repo/env/Makefile, the makefiles that it includes from /repo/env/src, /repo/nf/Makefile.nf, and the
functions for which the tool has models (/repo/tool/klint/executor.py).

Simplifications (whole file):
* A path is a list of characters, separated by spaces in a text of make; other white space and the characters that make or the shell treat
  in a special way are not considered.
* Of a C file there are the functions and variables that it defines for others and those of others that it uses; functions that the headers
  define as `static inline` belong to the files that use them. What compilers add (such as memcpy) and the steps before linking are left out.
* Of libraries there is only whether a file needs the C library or DPDK. How DPDK's own makefiles compile is not modelled.
-/

set_option autoImplicit false

namespace Verif.Build

/-! ### Names of files -/

/-- `$(subst .c,.o,text)` of env/Makefile:80,83 and nf/Makefile.nf:32,37: make replaces every occurrence in the text. -/
def substC : List Char → List Char
  | [] => []
  | [x] => [x]
  | x :: y :: r => if x = '.' ∧ y = 'c' then '.' :: 'o' :: substC r else x :: substC (y :: r)

/-- env/Makefile:80,83 and nf/Makefile.nf:32,37: the objects of sources, as make sees them: the words of the text in which `.c` is replaced. -/
def objects (srcs : List (List Char)) : List (List Char) :=
  ((substC ([' '].intercalate srcs)).splitOn ' ').filter (· ≠ [])

/-- env/Makefile:86-87 `%.o: %.c`: the source from which an object is made; `none` if there is no rule to make it. -/
def madeFrom (files : List (List Char)) (obj : List Char) : Option (List Char) :=
  if ['.', 'o'] <:+ obj ∧ obj.dropLast ++ ['c'] ∈ files then some (obj.dropLast ++ ['c']) else none

/-- The sources from which the objects are made; `none` if one of them cannot be made. -/
def compile (files srcs : List (List Char)) : Option (List (List Char)) := (objects srcs).mapM (madeFrom files)

/-- env/Makefile:47-58 and src/*/*/Makefile: the sources are given with the absolute path of env. -/
def inDir (dir : List Char) (names : List (List Char)) : List (List Char) := names.map fun n => dir ++ '/' :: n

/-- env/Makefile:39-45 `$(findstring .so,$(NF))`: whether the network function is linked as a shared library. -/
def dynamic (nf : List Char) : Bool := decide (['.', 's', 'o'] <:+: nf)

/-! ### The parts of programs -/

/-- The directories of env/src/os. -/
inductive Os where
  | linux | metal | dpdk
deriving DecidableEq, Repr

/-- The directories of env/src/net. -/
inductive Net where
  | tinynf | dpdk
deriving DecidableEq, Repr

/-- The directories of nf. -/
inductive Nf where
  | nop | bridge | firewall | nat | policer | maglev | router | dhcp | rustPolicer
deriving DecidableEq, Repr

/-- Libraries that are not in the repository. -/
inductive Lib where
  | libc | dpdk
deriving DecidableEq, Repr

/-- A source: what it defines, what it uses, and libraries. -/
structure Src where
  path : String
  defines : List String
  needs : List String
  libs : List Lib := []
deriving DecidableEq

/-- os/log.h:7-19: os_debug is a function of another file only if `DEBUG_LEVEL` is defined (Makefile.base:48). -/
def debugs (debug : Bool) : List String := if debug then ["os_debug"] else []

/-- os/clock.h:9-14: the variables that os_clock_time_ns uses. -/
def clock : List String := ["cpu_freq_numerator", "cpu_freq_denominator"]

/-- env/Makefile:48 `STRUCTS_SRCS`. -/
def structs : List Src := [
  ⟨"src/structs/cht.c", ["cht_alloc", "cht_find_preferred_available_backend"], ["os_memory_alloc", "index_pool_used"], []⟩,
  ⟨"src/structs/index_pool.c", ["index_pool_alloc", "index_pool_borrow", "index_pool_refresh", "index_pool_used", "index_pool_return"],
    ["os_memory_alloc"], []⟩,
  ⟨"src/structs/map.c", ["map_alloc", "map_get", "map_set", "map_remove"], ["os_memory_alloc"], []⟩]

/-- env/Makefile:51 `VERIF_SRCS`. -/
def verif : List Src := [
  ⟨"src/verif/drivers.c", ["descriptor_ring_alloc", "agents_alloc", "foreach_index_forever"], ["os_memory_alloc"], []⟩]

/-- env/Makefile:54 `OS_SRCS` before the makefile of the system. -/
def shared (debug : Bool) : List Src := [
  ⟨"src/os/config.c", ["os_config_try_get"], [], []⟩,
  ⟨"src/os/memory_alloc.c", ["os_memory_alloc"], ["memory", "memory_used_len"] ++ debugs debug, []⟩,
  ⟨"src/os/pci.c", ["os_pci_enumerate"], ["os_memory_alloc"], []⟩]

/-- The C files of a directory of env/src/os; the assembly files of os/metal are in no makefile. -/
def osDir (debug : Bool) : Os → List Src
  | .linux => [
    ⟨"src/os/linux/clock.c", ["os_clock_sleep_ns"], debugs debug, [.libc]⟩,
    ⟨"src/os/linux/init.c", ["os_init", "memory", "memory_used_len"] ++ clock, debugs debug, [.libc]⟩,
    ⟨"src/os/linux/log.c", debugs debug, [], [.libc]⟩,
    ⟨"src/os/linux/memory.c", ["os_memory_phys_to_virt", "os_memory_virt_to_phys"], debugs debug, [.libc]⟩]
  | .metal => [
    ⟨"src/os/metal/_start.c", ["_start"], ["main"], []⟩,
    ⟨"src/os/metal/clock.c", ["os_clock_sleep_ns"], clock, []⟩,
    ⟨"src/os/metal/init.c", ["os_init", "memory", "memory_used_len"] ++ clock, [], []⟩,
    ⟨"src/os/metal/memory.c", ["os_memory_phys_to_virt", "os_memory_virt_to_phys"], [], []⟩]
  | .dpdk => [
    ⟨"src/os/dpdk/clock.c", ["os_clock_sleep_ns"], [], [.dpdk]⟩,
    ⟨"src/os/dpdk/init.c", "os_init" :: clock, [], [.dpdk]⟩,
    ⟨"src/os/dpdk/log.c", debugs debug, [], [.dpdk]⟩,
    ⟨"src/os/dpdk/memory.c", ["os_memory_alloc", "os_memory_phys_to_virt", "os_memory_virt_to_phys"], [], [.dpdk]⟩]

/-- The makefiles in env/src/os: `OS_SRCS`, or an error (os/dpdk/Makefile:1-3, os/metal/Makefile:15-17). With DPDK the shared allocator is
filtered out (os/dpdk/Makefile:9). -/
def osSrcs (os : Os) (net : Net) (debug : Bool) : Option (List Src) :=
  match os with
  | .dpdk => if net ≠ .dpdk then none else some ((shared debug).filter (·.path ≠ "src/os/memory_alloc.c") ++ osDir debug .dpdk)
  | .metal => if debug then none else some (shared debug ++ osDir debug .metal)
  | .linux => some (shared debug ++ osDir debug .linux)

/-- The makefiles in env/src/net: `NET_SRCS`, or an error (net/dpdk/Makefile:1-3). -/
def netSrcs (net : Net) (debug dyn : Bool) : Option (List Src) :=
  match net with
  | .tinynf => some [
    ⟨"src/net/tinynf/ixgbe.c", ["tn_device_init", "tn_device_set_promiscuous", "tn_device_get_mac", "tn_agent_init", "tn_run"],
      ["descriptor_ring_alloc", "foreach_index_forever", "os_clock_sleep_ns", "os_memory_alloc", "os_memory_phys_to_virt",
        "os_memory_virt_to_phys"] ++ debugs debug, []⟩,
    ⟨"src/net/tinynf/main.c", ["net_transmit", "net_flood", "net_flood_except", "main"],
      ["agents_alloc", "nf_init", "nf_handle", "os_init", "os_memory_alloc", "os_pci_enumerate", "tn_device_init",
        "tn_device_set_promiscuous", "tn_device_get_mac", "tn_agent_init", "tn_run"] ++ clock ++ debugs debug, []⟩]
  | .dpdk => if !dyn then none else some [
    ⟨"src/net/dpdk/main.c", ["net_transmit", "net_flood", "net_flood_except", "main"], ["nf_init", "nf_handle", "os_init"] ++ clock,
      [.libc, .dpdk]⟩]

/-- What nf_init of each network function uses: os/config.h:15-80 and net/skeleton.h:30-38 use os_config_try_get. -/
def initNeeds : Nf → List String
  | .nop => ["os_config_try_get"]
  | .bridge | .firewall | .nat | .policer | .dhcp | .rustPolicer =>
    ["os_config_try_get", "os_memory_alloc", "map_alloc", "index_pool_alloc"]
  | .maglev => ["os_config_try_get", "os_memory_alloc", "map_alloc", "index_pool_alloc", "cht_alloc"]
  | .router => ["os_config_try_get", "lpm_alloc"]

/-- What nf_handle of each network function uses. -/
def handleNeeds (debug : Bool) : Nf → List String
  | .nop => ["net_transmit"]
  | .bridge => ["map_get", "map_set", "map_remove", "index_pool_borrow", "index_pool_refresh", "net_transmit", "net_flood", "net_flood_except"]
  | .firewall | .nat =>
    ["map_get", "map_set", "map_remove", "index_pool_borrow", "index_pool_refresh", "index_pool_used", "net_transmit"] ++ debugs debug
  | .policer | .rustPolicer => ["map_get", "map_set", "map_remove", "index_pool_borrow", "index_pool_refresh", "net_transmit"]
  | .maglev => ["map_get", "map_set", "map_remove", "index_pool_borrow", "index_pool_refresh", "index_pool_used", "index_pool_return",
      "cht_find_preferred_available_backend", "net_transmit"] ++ debugs debug
  | .router => ["lpm_set", "lpm_search", "net_transmit"] ++ debugs debug
  | .dhcp => ["map_get", "map_set", "map_remove", "index_pool_borrow", "index_pool_refresh"]

/-- nf/Makefile.nf:32-38 and nf/rust-policer/Makefile: the library of a network function. Three functions of dhcp.c (lines 31, 53, 79) are
not static. The Rust one needs the C library for its standard library. -/
def nfLib (nf : Nf) (debug : Bool) : Src :=
  ⟨"libnf", ["nf_init", "nf_handle"] ++ (if nf = .dhcp then
      ["create_dhcp_ack_message", "is_dhcp_request_message_accepted", "try_create_dhcp_discover_message"] else []),
    initNeeds nf ++ handleNeeds debug nf, if nf = .rustPolicer then [.libc] else []⟩

/-- env/Makefile:61 `SPLIT_SRCS`. -/
def split (os : Os) (net : Net) (debug : Bool) : Option (List Src) :=
  (osSrcs os net debug).map fun s => structs ++ verif ++ s

/-- env/Makefile:61-87, or the makefile of DPDK: what is linked into a program; `none` if a makefile reports an error. -/
def program (os : Os) (net : Net) (nf : Nf) (debug dyn : Bool) : Option (List Src) := do
  let s ← split os net debug
  let n ← netSrcs net debug dyn
  some (s ++ n ++ [nfLib nf debug])

/-- The libraries that are linked: with os/metal/Makefile:13 (`-nostdlib`) not the C library; DPDK with its makefiles. -/
def libs (os : Os) (net : Net) : List Lib :=
  (if os = .metal then [] else [.libc]) ++ (if net = .dpdk then [.dpdk] else [])

/-! ### The models of the tool -/

/-- executor.py:32-37 `structs_alloc_externals`. -/
def structsAlloc : List String := ["map_alloc", "index_pool_alloc", "cht_alloc", "lpm_alloc"]

/-- executor.py:39-51 `structs_functions_externals`. -/
def structsFunctions : List String :=
  ["map_get", "map_set", "map_remove", "index_pool_borrow", "index_pool_return", "index_pool_refresh", "index_pool_used",
    "cht_find_preferred_available_backend", "lpm_set", "lpm_search", "lpm_remove"]

/-- executor.py:88-92 `libnf_init_externals`. -/
def libnfInit : List String := ["os_config_try_get", "os_memory_alloc"] ++ structsAlloc

/-- executor.py:94-100 `libnf_handle_externals`. -/
def libnfHandle : List String := ["os_debug", "net_transmit", "net_flood", "net_flood_except"] ++ structsFunctions

/-- executor.py:137-148 `nf_init_externals`. -/
def nfInit : List String :=
  ["os_clock_sleep_ns", "os_config_try_get", "os_memory_alloc", "os_memory_phys_to_virt", "os_memory_virt_to_phys", "os_pci_enumerate",
    "descriptor_ring_alloc", "agents_alloc", "foreach_index_forever"] ++ structsAlloc

/-- executor.py:150 `nf_handle_externals`. -/
def nfHandle : List String := structsFunctions

/-- kalm/executor.py:55-57 and kalm/library.py:3-6: a call of an undefined function ends the verification unless it is among the models. -/
def verifies (models calls : List String) : Bool := calls.all (models.contains ·)

end Verif.Build
