import Verif.Model.Client
/-!
# The bandwidth tests of the C++ performance tester

Model of `measureReadLatency` and `measureWriteLatency`, /repo/uhal/tests/src/common/tools.cpp:68-142, with their use in /repo/uhal/tests/src/common/PerfTester.cxx:294-345. Paths without a directory
are tools.cpp.

Simplifications: clients are numbers; a call is recorded and returns (exceptions are left out); the time and the texts are left out, and so is the first access to each client
(PerfTester.cxx:296-303, 323-330). `size_t` and `uint64_t` are natural numbers below 2^64.
-/

set_option autoImplicit false

namespace Verif.Latency
open Verif

/-- One turn, lines 85-93 and 125-133: the block of each client, then, with `aDispatchEachIteration`, each `dispatch`. -/
def turn (clients : Nat) (each : Bool) (o : Op) : List (Nat × Op) :=
  (List.range clients).map (fun k => (k, o)) ++ if each then (List.range clients).map (fun k => (k, .dispatch)) else []

/-- The loop, lines 78-93 and 117-133: the counter is `unsigned`, the limit `size_t`. `none`: has not ended after `fuel` turns. -/
def loop (clients : Nat) (each : Bool) (o : Op) (n : Nat) : Nat → W → Option (List (Nat × Op))
  | fuel, i =>
    if i.toNat < n then
      match fuel with
      | 0 => none
      | fuel + 1 => (loop clients each o n fuel (i + 1#32)).map fun l => turn clients each o ++ l
    else some []

/-- The whole function, lines 74-102 and 111-142: the calls, in order. -/
def measure (clients : Nat) (each : Bool) (o : Op) (n fuel : Nat) : Option (List (Nat × Op)) :=
  (loop clients each o n fuel 0#32).map fun l => l ++ if each then [] else (List.range clients).map (fun k => (k, .dispatch))

/-- The block of `measureReadLatency`, line 86. -/
def readCall (base depth : W) : Op := .readBlock base depth false

/-- The block of `measureWriteLatency`, lines 114, 126. -/
def writeCall (base depth : W) : Op := .writeBlock base (List.replicate depth.toNat 0xbebafeca#32) false

/-- The words from which the rates are computed, PerfTester.cxx:312, 339: a product of unsigned 64-bit numbers. -/
def payload (clients n : Nat) (depth : W) : Nat := clients * n * depth.toNat % 2 ^ 64

end Verif.Latency
