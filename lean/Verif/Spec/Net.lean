import Verif.Spec.Seq
/-!
# An unreliable network between a client and a target

Independent of the models: the client has sent datagrams and received datagrams; in between is a network that loses, duplicates, delays and
reorders datagrams in both directions, and a target that executes what arrives, in the order of arrival.
-/

set_option autoImplicit false

namespace Verif.Spec

/-- Requests that arrive at a target one after the other; the answers, and the state of the target afterwards. -/
def arrive {ρ : Type} (resp : ρ → List W → Option (List W) × ρ) : ρ → List (List W) → List (Option (List W)) × ρ
  | e, [] => ([], e)
  | e, p :: ps => ((resp e p).1 :: (arrive resp (resp e p).2 ps).1, (arrive resp (resp e p).2 ps).2)

/-- A history of the network. `arr`: the numbers (in the order of sending) of the client's datagrams, in the order in which copies of them arrived at the target; `got`: the numbers (in the order of
arrival of the requests) of the answers, in the order in which copies of them arrived at the client. -/
structure Carried {ρ : Type} (resp : ρ → List W → Option (List W) × ρ) (sent rx : List (List W)) (e e' : ρ) (arr got : List Nat) : Prop where
  known : ∀ i ∈ arr, i < sent.length
  done : (arrive resp e (arr.filterMap fun i => sent[i]?)).2 = e'
  back : rx.map some = got.map fun j => ((arrive resp e (arr.filterMap fun i => sent[i]?)).1[j]?).join

/-- Number of transactions in a datagram. -/
def txnsIn (c : Cfg) (ws : List W) : Nat :=
  match parsePacket c.ver (ipbusPart c.hub ws) with
  | some (_, txns) => txns.length
  | none => 0

/-- Number of transactions from one of the datagrams to another. -/
def apart (c : Cfg) (sent : List (List W)) (i k : Nat) : Nat := (((sent.take (max i k)).drop (min i k)).map (txnsIn c)).sum

/-- No answer comes to the client so late or so early that the transaction ids have gone round once in between. -/
def InWindow (c : Cfg) (sent : List (List W)) (arr got : List Nat) : Prop :=
  ∀ (k j i : Nat), got[k]? = some j → arr[j]? = some i → apart c sent i k < 2 ^ idBits c.ver

end Verif.Spec
