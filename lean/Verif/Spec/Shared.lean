import Verif.Spec.Seq
/-!
# One operation at a time on a shared target

Several clients use a target. What one of them sees: its calls perform their word accesses in order, and between two accesses (never inside a
read-modify-write) the target may have done something for somebody else.
-/

set_option autoImplicit false

namespace Verif.Spec

section
variable {σ β : Type}

/-- From memory `m`, the accesses `as` of this client, interleaved with the things `bs` done for others, give the words `ws` and end with the
other memory. -/
inductive SharedExec (v : Ver) (tg : Target σ) (other : σ → β → σ) : σ → List Acc → List β → List W → σ → Prop
  | done (m : σ) : SharedExec v tg other m [] [] [] m
  | mine {m m' : σ} {a : Acc} {as : List Acc} {bs : List β} {ws : List W} :
      SharedExec v tg other (a.exec v tg m).2 as bs ws m' → SharedExec v tg other m (a :: as) bs ((a.exec v tg m).1 ++ ws) m'
  | other {m m' : σ} {as : List Acc} {b : β} {bs : List β} {ws : List W} :
      SharedExec v tg other (other m b) as bs ws m' → SharedExec v tg other m as (b :: bs) ws m'

/-- A whole program: what the user sees of each call (`none`: refused), and the final memory. -/
inductive SharedRun (v : Ver) (tg : Target σ) (other : σ → β → σ) : σ → List Op → List β → List (Option (List W)) → σ → Prop
  | done (m : σ) (bs : List β) : SharedRun v tg other m [] bs [] (bs.foldl other m)
  | refused {m m' : σ} {op : Op} {ops : List Op} {bs : List β} {rs : List (Option (List W))} : opAccs v op = none →
      SharedRun v tg other m ops bs rs m' → SharedRun v tg other m (op :: ops) bs (none :: rs) m'
  | call {m m1 m' : σ} {op : Op} {as : List Acc} {ops : List Op} {bs bs' : List β} {ws : List W} {rs : List (Option (List W))} :
      opAccs v op = some as → SharedExec v tg other m as bs ws m1 → SharedRun v tg other m1 ops bs' rs m' →
      SharedRun v tg other m (op :: ops) (bs ++ bs') (some (opShow op ws) :: rs) m'

end

end Verif.Spec
