/-
Model of /repo/benchmarking/bench-moongen.lua: the search for the throughput, the loads of the latency measurements, and the
packets that are generated.

Simplifications.
* Numbers are exact. The rates of the search are multiples of 10000 / 2^9 = 625 / 32, which doubles hold exactly; losses are rounded in Lua.
* A device under test is what it does with the packets of each trial: how many are sent and how many come back.
* Interruption by the user is not modelled; exiting with an error is the result `fatal` or `none`.
* What MoonGen does: `fill` sets the fields named and the usual values of the others; `set` of an address writes an encoding of the
  number that is a parameter here; a port assigned to the field `src` or `dst` of the header, without MoonGen's functions, is in the
  byte order of the machine, least significant byte first.
-/
import Mathlib.Data.Rat.Floor
import Verif.Nf.Packet

set_option autoImplicit false

namespace Verif.Bench
open Verif.Nf (Packet)

/-! ### Measuring one direction -/

/-- bench-moongen.lua:10 `PACKET_SIZE`. -/
def packetSize : ℚ := 60

/-- :225-247 `moongenRate`: the rate that MoonGen is given. -/
def moongenRate (rate : ℚ) : ℚ :=
  let byteRate := rate * 1024 * 1024 / 8
  let packetsPerSec := byteRate / (packetSize + 24)
  let moongenByteRate := packetsPerSec * (packetSize + 4)
  let moongenRate := moongenByteRate * 8 / (1024 * 1024)
  let moongenRate := if moongenRate < 10 then 10 else moongenRate
  (⌊moongenRate⌋ : ℚ)

/-- :250: the packets that should be sent in `duration` milliseconds. -/
def targetTx (rate duration : ℚ) : ℚ := rate * 1000 * 1000 / ((packetSize + 24) * 8) * (duration / 1000)

/-- :209-218: the loss in one direction, from the packets sent and received; `none` if too few were sent. -/
def taskLoss (target : ℚ) (x : ℚ × ℚ) : Option ℚ :=
  if x.1 < 98 / 100 * target then none else some ((x.1 - x.2) / x.1)

/-- :287-297: the loss of a trial, from what each direction sent and received. -/
def trialLoss (target : ℚ) (xs : List (ℚ × ℚ)) : Option ℚ := do
  let losses ← xs.mapM (taskLoss target)
  some (losses.sum / xs.length)

/-! ### The search -/

/-- :13-17. -/
def stepsDuration : ℚ := 30000
def stepsCount : Nat := 10
def rateMin : ℚ := 0
def rateMax : ℚ := 10000

/-- :278-284: the variables of the search. -/
structure Search where
  upperBound : ℚ
  lowerBound : ℚ
  rate : ℚ
  bestRate : ℚ
  lastLoss : ℚ
  increased : Bool

/-- :278-284. -/
def Search.initial : Search := ⟨rateMax, rateMin, rateMax, 0, 1, false⟩

/-- The end of the search: an error, or the best rate. -/
inductive Result where
  | fatal
  | best (rate : ℚ)
deriving DecidableEq

/-- :314-328: the variables after a trial. -/
def Search.next (acceptable loss : ℚ) (s : Search) : Search :=
  if loss ≤ acceptable then
    { s with bestRate := s.rate, lowerBound := s.rate, rate := s.rate + (s.upperBound - s.rate) / 2, increased := true, lastLoss := loss }
  else
    { s with upperBound := s.rate, rate := s.lowerBound + (s.rate - s.lowerBound) / 2, increased := false, lastLoss := loss }

/-- :285-339: the loop, from step `i` on, at most `k` more steps. `trial i rate` is what each direction sends and receives in step `i`. -/
def searchFrom (acceptable : ℚ) (trial : Nat → ℚ → List (ℚ × ℚ)) : Nat → Nat → Search → Result
  | 0, _, s => .best s.bestRate
  | k + 1, i, s =>
    match trialLoss (targetTx s.rate stepsDuration) (trial i s.rate) with
    | none => .fatal
    | some loss =>
      if loss = 1 then .fatal
      else if s.increased = false ∧ s.lastLoss - loss < -(5 / 100) then .fatal
      else
        let s := s.next acceptable loss
        if i = stepsCount ∨ (loss ≤ acceptable ∧ s.bestRate = s.upperBound) then .best s.bestRate
        else searchFrom acceptable trial k (i + 1) s

/-- :278-339. -/
def search (acceptable : ℚ) (trial : Nat → ℚ → List (ℚ × ℚ)) : Result := searchFrom acceptable trial stepsCount 1 .initial

/-- :335: the number that is written to the file of results, for `pairs` directions. -/
def written (pairs : Nat) (bestRate : ℚ) : ℤ := ⌊pairs * bestRate⌋

/-! ### The loads of the latency measurements -/

/-- :28-29. -/
def loadIncrement : ℚ := 500
def loadPadding : ℚ := 100

/-- :348-351: the loop, at most `k` iterations. -/
def guesses (bestRate : ℚ) : Nat → ℚ → List ℚ
  | 0, _ => []
  | k + 1, guess => if guess ≤ bestRate then guess :: guesses bestRate k (guess + loadIncrement) else []

/-- :346-354, with an option of -2 for the load. The loop ends after as many iterations as increments fit, and one more. -/
def latencyRates (bestRate : ℚ) : List ℚ :=
  let rates := guesses bestRate (⌊bestRate / loadIncrement⌋₊ + 2) 0
  match rates.getLast? with
  | none => rates
  | some last => if bestRate - loadPadding ≥ last then rates ++ [bestRate] else rates

/-- :382: the rate of the background traffic of a measurement, if not zero. -/
def backgroundRate (rate : ℚ) : ℚ := rate - loadPadding

/-! ### The packets -/

/-- :186-198: the counters of the next `n` packets of a task, from the values of `counter` and `batchCounter` on. -/
def countersFrom (flows batch : Nat) : Nat → Nat → Nat → List Nat
  | 0, _, _ => []
  | n + 1, counter, batchCounter =>
    counter :: if batchCounter + 1 = batch then countersFrom flows batch n ((counter + 1) % flows) 0
      else countersFrom flows batch n counter (batchCounter + 1)

/-- :183-198: the counters of the first `n` packets of a task. -/
def counters (flows batch n : Nat) : List Nat := countersFrom flows batch n 0 0

/-- :20-22: rate, duration and batch size of the heatup. -/
def heatupRate : ℚ := 100
def heatupDuration : ℚ := 5000
def heatupBatch : Nat := 8

/-- How MoonGen's functions `set` write numbers. -/
structure Encoding where
  mac : Nat → List UInt8
  ip : Nat → List UInt8

/-- A port assigned to a field. -/
def portBytes (n : Nat) : List UInt8 := [UInt8.ofNat n, UInt8.ofNat (n / 256)]

/-- The fields of the headers. -/
structure Headers where
  ethSrc : List UInt8
  ethDst : List UInt8
  ipSrc : List UInt8
  ipDst : List UInt8
  udpSrc : List UInt8
  udpDst : List UInt8

/-- :98-123 `packetInits`. -/
def packetInit (direction : Nat) : Headers :=
  if direction = 0 then
    ⟨[255, 255, 255, 255, 255, 255], [0, 0, 0, 0, 0, 0], [198, 18, 0, 0], [198, 18, 1, 0], [255, 255], [0, 0]⟩
  else ⟨[0, 0, 0, 0, 0, 0], [255, 255, 255, 255, 255, 255], [198, 18, 1, 0], [198, 18, 0, 0], [0, 0], [255, 255]⟩

/-- :70-96 `packetConfigs`, for layers 2, 3 and 4. -/
def packetConfig (e : Encoding) (direction layer counter : Nat) (h : Headers) : Headers :=
  if layer = 2 then
    if direction = 0 then { h with ethSrc := e.mac counter, ethDst := e.mac (0xFF0000000000 + counter) }
    else { h with ethSrc := e.mac (0xFF0000000000 + counter), ethDst := e.mac counter }
  else if layer = 3 then
    if direction = 0 then { h with ipSrc := e.ip counter } else { h with ipDst := e.ip counter }
  else
    if direction = 0 then { h with udpSrc := portBytes counter } else { h with udpDst := portBytes counter }

/-- The bytes of a field. -/
def field (l : List UInt8) (i : Nat) : UInt8 := (l[i]?).getD 0

/-- A UDP packet in MoonGen: Ethernet type 0x0800, IPv4 version and header length 0x45, time to live 64, protocol 17; `rest` has the
bytes that are not named (lengths, checksums, data). -/
def bytes (h : Headers) (rest : Mem) : Mem := fun i =>
  if i < 6 then field h.ethDst i
  else if i < 12 then field h.ethSrc (i - 6)
  else if i = 12 then 8
  else if i = 13 then 0
  else if i = 14 then 0x45
  else if i = 22 then 64
  else if i = 23 then 17
  else if 26 ≤ i ∧ i < 30 then field h.ipSrc (i - 26)
  else if 30 ≤ i ∧ i < 34 then field h.ipDst (i - 30)
  else if 34 ≤ i ∧ i < 36 then field h.udpSrc (i - 34)
  else if 36 ≤ i ∧ i < 38 then field h.udpDst (i - 36)
  else rest i

/-- A packet of the benchmark as the network function receives it. Packets of direction 0 arrive at device 0, if the cables are not crossed (:440-444). -/
structure Sent where
  direction : Nat
  counter : Nat
  time : Nat
  length : Nat
  rest : Mem

/-- :98-123 and 70-96. -/
def packet (e : Encoding) (layer : Nat) (x : Sent) : Packet :=
  { data := bytes (packetConfig e x.direction layer x.counter (packetInit x.direction)) x.rest, length := x.length, time := x.time,
    device := x.direction }

/-! ### The whole benchmark -/

/-- :256-268 `heatUp`: whether the script goes on, from what was sent and received. -/
def heatUp (ignoreLoss : Bool) (x : ℚ × ℚ) : Bool :=
  match taskLoss (targetTx heatupRate heatupDuration) x with
  | none => false
  | some loss => ignoreLoss || !decide (loss > 1 / 100)

/-- :272-339 `measureStandard` up to the throughput; `reverse` and `forward` are what the two heatups send and receive. -/
def standard (maglev : Bool) (reverse forward : ℚ × ℚ) (acceptable : ℚ) (trial : Nat → ℚ → List (ℚ × ℚ)) : Result :=
  if maglev && !heatUp true reverse then .fatal
  else if !heatUp false forward then .fatal
  else search acceptable trial

/-- :427-444: the port of the tester that sends the packets of a direction. -/
def senderPort (maglev xchange : Bool) (direction : Nat) : Nat :=
  let ports := (0, 1)
  let ports := if maglev then (ports.2, ports.1) else ports
  let ports := if xchange then (ports.2, ports.1) else ports
  if direction = 0 then ports.1 else ports.2

/-- The device of the network function at which the packets of a direction arrive; crossed cables join port 0 to device 1, and
bench-tester.sh:30-33 then exchanges the ports. -/
def inputDevice (crossed maglev : Bool) (direction : Nat) : Nat :=
  let port := senderPort maglev crossed direction
  if crossed then 1 - port else port

/-- A packet of the benchmark as it arrives, given the cables and the option for Maglev. -/
def packetOn (e : Encoding) (layer : Nat) (crossed maglev : Bool) (x : Sent) : Packet :=
  { packet e layer x with device := inputDevice crossed maglev x.direction }

end Verif.Bench
