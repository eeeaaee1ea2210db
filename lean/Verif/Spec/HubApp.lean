import Verif.Spec.Hub
/-!
# Messages between uHAL and the ControlHub, counted

Independent of the model: what a message consists of, and how many answers the messages to a client contain.
-/

set_option autoImplicit false

namespace Verif.Spec.HubApp
open Verif.Spec.Hub (be)

/-- A packet in a message from a client: eight bytes, of which the last two give the number of words that follow. -/
def Packet (b : List Nat) : Prop := ∃ h1 h2 body, b.length = 8 + body.length ∧ b.drop 6 = h1 :: h2 :: body ∧ body.length = 4 * (256 * h1 + h2)

/-- One or more packets. -/
inductive WellFormed : List Nat → Prop
  | one {b : List Nat} : Packet b → WellFormed b
  | more {b t : List Nat} : Packet b → WellFormed t → WellFormed (b ++ t)

/-- So many answers, one after the other: the number of bytes that follow, address, port, code, data. -/
inductive Answers : List Nat → Nat → Prop
  | nil : Answers [] 0
  | snoc {m : List Nat} {n : Nat} (ip port code : Nat) (data : List Nat) : Answers m n →
      Answers (m ++ (be 4 (data.length + 8) ++ be 4 ip ++ be 2 port ++ be 2 code ++ data)) (n + 1)

/-- The refusal to talk to a target. -/
def Refusal (m : List Nat) : Prop := ∃ ip port, m = be 4 8 ++ be 4 ip ++ be 2 port ++ be 2 7

/-- Messages to a client with so many answers in them; refusals do not count. -/
inductive Sent : List (List Nat) → Nat → Prop
  | nil : Sent [] 0
  | answers {l : List (List Nat)} {n k : Nat} {m : List Nat} : Sent l n → Answers m k → Sent (l ++ [m]) (n + k)
  | refusal {l : List (List Nat)} {n : Nat} {m : List Nat} : Sent l n → Refusal m → Sent (l ++ [m]) n

end Verif.Spec.HubApp
