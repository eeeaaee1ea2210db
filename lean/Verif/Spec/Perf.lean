import Verif.Model.Perf
/-!
# What the result of the performance tester should mean
-/

set_option autoImplicit false

namespace Verif.Spec
open Verif.Perf

/-- A message with a packet. -/
def IsPkt : Msg → Bool
  | .pkt _ => true
  | _ => false

/-- At each moment: the requests that were sent and those that are left are `n`, every reply was the right one, and the number of requests without a reply is between 0 and `max`. -/
def KeepsWindow (n : Nat) (max : Int) (reply : Pkt) (s : St) : Prop :=
  (s.sent : Int) + s.left = n ∧ (∀ m ∈ s.got, m = .pkt reply) ∧ s.got.length ≤ s.sent ∧ (s.sent : Int) - s.got.length ≤ max

/-- What the outcome says about what happened, if the messages in `arr` arrived. -/
def Fair (n : Nat) (max : Int) (reply : Pkt) (arr : List (List Msg)) : Out → Prop
  -- as many right replies as requests
  | .ok s => s.sent = n ∧ s.got.length = n ∧ ∀ m ∈ s.got, m = .pkt reply
  | .running s => KeepsWindow n max reply s
  -- all packets that had arrived until then were taken, and there were fewer than requests
  | .late s => KeepsWindow n max reply s ∧ s.got.length < s.sent ∧ ∃ k, ((arr.take k).flatten.countP IsPkt) = s.got.length
  | .wrong p => p ≠ reply ∧ .pkt p ∈ arr.flatten
  | .crash => .sendStatus false ∈ arr.flatten ∨ .closed ∈ arr.flatten

end Verif.Spec
