/-!
# Time-interval statistics

Models `TimeIntervalStats` (/repo/uhal/uhal/src/common/utilities/TimeIntervalStats.cpp and the header of the same name under
include/uhal/utilities). Durations are integers (nanoseconds); overflow of the 64-bit counters is not modelled, except for the
conversion to unsigned in `mean`.
-/

set_option autoImplicit false

namespace Verif.Stats

/-- Data members, include/uhal/utilities/TimeIntervalStats.hpp:34-40. -/
structure Stats where
  latest : List Int
  mn : Int
  mx : Int
  sum : Int
  n : Nat
deriving DecidableEq, Repr

/-- Outcome of a call: a value or undefined behaviour (`pop` on an empty queue, division by zero). -/
inductive SOut (α : Type)
  | ok (a : α)
  | ub
deriving DecidableEq, Repr

/-- The constructor, TimeIntervalStats.cpp:10-13: only `nMeasurements` is initialised; the three durations keep whatever is in
memory (`junk`). -/
def init (junk : Int × Int × Int) : Stats := ⟨[], junk.1, junk.2.1, junk.2.2, 0⟩

/-- `add`, TimeIntervalStats.cpp:52-67. -/
def add (s : Stats) (d : Int) : Stats :=
  { mn := if s.n = 0 ∨ d < s.mn then d else s.mn
    mx := if s.n = 0 ∨ d > s.mx then d else s.mx
    sum := s.sum + d
    n := s.n + 1
    latest := if (s.latest ++ [d]).length > 5 then (s.latest ++ [d]).tail else s.latest ++ [d] }

/-- `for (i = 0; i < n; i++) queue.pop()`, TimeIntervalStats.cpp:72-73. -/
def popN : Nat → List Int → SOut (List Int)
  | 0, q => .ok q
  | _ + 1, [] => .ub
  | k + 1, _ :: q => popN k q

/-- `clear`, TimeIntervalStats.cpp:70-75. -/
def clear (s : Stats) : SOut Stats :=
  match popN s.n s.latest with
  | .ok q => .ok { s with latest := q, n := 0 }
  | .ub => .ub

/-- `mean`, TimeIntervalStats.cpp:40-43: dividing a duration by a `size_t` converts the count of the duration to an unsigned 64-bit
number. -/
def mean (s : Stats) : SOut Int :=
  if s.n = 0 then .ub else .ok ((s.sum % 2 ^ 64) / s.n)

/-- The calls that change the object. -/
inductive Op
  | add (d : Int)
  | clear
deriving DecidableEq, Repr

def Op.run (s : Stats) : Op → SOut Stats
  | .add d => .ok (Stats.add s d)
  | .clear => Stats.clear s

def runAll (s : Stats) : List Op → SOut Stats
  | [] => .ok s
  | o :: os => match o.run s with
    | .ok s' => runAll s' os
    | .ub => .ub

end Verif.Stats
