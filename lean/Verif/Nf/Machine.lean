/-
A network function on the whole machine: /repo/env/src/net/tinynf/main.c:51-62 with the
functions of main.c:28-49 that the network function calls.

The result `none` of the network function or of these functions (an access out of bounds)
leaves the state `none`.
-/
import Verif.Env.Machine
import Verif.Nf.Runtime

set_option autoImplicit false

namespace Verif.Nf.Machine
open Verif.Nf.Runtime

/-- The calls of main.c:28-49 that the network function makes, one after the other. -/
def emitAll (macs : Macs) (n : Nat) : Mem → List Nat → List Out → Option (Mem × List Nat)
  | m, ls, [] => some (m, ls)
  | _, ls, o :: os => do
    let (m, ls) ← emit macs n ls o
    emitAll macs n m ls os

/-- main.c:51-62 `tinynf_packet_handler`. The array of lengths has an entry for each other
device. -/
def handler {S : Type} (macs : Macs) (n : Nat) (handle : S → Packet → Option (S × List Out)) :
    Verif.Machine.Handler (Option S) Mem := fun index time s packet length lengths =>
  match s with
  | none => (none, packet, lengths)
  | some s =>
    match handle s { data := packet, length := length, time := time, device := index } with
    | none => (none, packet, lengths)
    | some (s, outs) =>
      match emitAll macs n packet ((List.range (n - 1)).map lengths) outs with
      | none => (none, packet, lengths)
      | some (packet, ls) => (some s, packet, fun j => ls.getD j 0)

end Verif.Nf.Machine
