import Verif.Spec.Shared
/-!
# Several programs, one order

Several clients use a target. There is one order of all word accesses of all of them; each sees what its accesses give at their places in this order.
-/

set_option autoImplicit false

namespace Verif.Spec

section
variable {σ β : Type}

/-- A word access of a client, or something else that happens to the target. -/
inductive Deed (β : Type)
  | acc (a : Acc)
  | raw (b : β)

def Deed.exec (v : Ver) (tg : Target σ) (other : σ → β → σ) (m : σ) : Deed β → List W × σ
  | .acc a => a.exec v tg m
  | .raw b => ([], other m b)

/-- Everything in order, each with the number of the client on whose account it happens: the words that each gives, and the memory at the end. -/
def commonRun (v : Ver) (tg : Target σ) (other : σ → β → σ) : List (Nat × Deed β) → σ → List (Nat × List W) × σ
  | [], m => ([], m)
  | e :: es, m =>
    let r := e.2.exec v tg other m
    let q := commonRun v tg other es r.2
    ((e.1, r.1) :: q.1, q.2)

/-- The words of one client. -/
def wordsOf (i : Nat) (outs : List (Nat × List W)) : List W := (outs.filter fun e => e.1 = i).flatMap (·.2)

/-- How many words an access gives. -/
def Acc.gives : Acc → Nat
  | .wr .. => 0
  | _ => 1

/-- What a user sees of a program whose accesses give these words. -/
def progShow (v : Ver) : List Op → List W → List (Option (List W))
  | [], _ => []
  | op :: ops, ws =>
    match opAccs v op with
    | none => none :: progShow v ops ws
    | some as => some (opShow op (ws.take (as.map Acc.gives).sum)) :: progShow v ops (ws.drop (as.map Acc.gives).sum)

end

end Verif.Spec
