import Verif.Model.Node
/-!
# Which nodes an address belongs to, in words

`getAddressDescription`, /repo/uhal/uhal/src/common/detail/utilities.cpp:46-102. The text is part of the exception that reports a
bad response code (src/common/ProtocolIPbusCore.cpp:90-108), where `aNode` is the root of the device's node tree; only this
case is modelled. A node is its position in the tree. `none`: an exception of the standard library (`std::runtime_error` of
`getLineage`, `std::out_of_range` of `at` and `substr`).
-/

set_option autoImplicit false

namespace Verif

/-- The condition of the loop, utilities.cpp:51-58. The sum is one of 32-bit numbers. -/
def NodeData.covers (d : NodeData) (a : W) : Bool :=
  match d.mode with
  | .incremental => decide (d.addr.toNat ≤ a.toNat) && decide (a.toNat < (d.addr + d.size).toNat)
  | .hierarchical => false
  | _ => decide (d.addr = a)

namespace Node

/-- `lMatches`, utilities.cpp:48-59: the iteration begins with the node itself. -/
def matching (n : Node) (a : W) : List (List Nat) :=
  ([] :: positions n).filter fun p => (n.sub? p).any fun v => v.d.covers a

/-- A position and all above it, from the root down. -/
def prefs : List Nat → List (List Nat)
  | [] => [[]]
  | i :: p => [] :: (prefs p).map (i :: ·)

/-- `getLineage(root)`, src/common/Node.cpp:707-722: all nodes above, from the root down. The root itself has no parent: exception. -/
def lineagePos : List Nat → Option (List (List Nat))
  | [] => none
  | p => some (prefs p.dropLast)

/-- The inner loop, utilities.cpp:72-76: how long the lineages agree. -/
def commonLen : List (List Nat) → List (List Nat) → Nat
  | a :: as, b :: bs => if a = b then commonLen as bs + 1 else 0
  | _, _ => 0

/-- The loop over the matches after the first, utilities.cpp:69-79: `lCommonAncestor` and `lCommonAncestorLineage`. -/
def ancestorLoop : List (List Nat) → List Nat × List (List Nat) → Option (List Nat × List (List Nat))
  | [], st => some st
  | q :: qs, (_, lin) =>
    match lineagePos q with
    | none => none
    | some l =>
      match commonLen lin l with
      | 0 => none
      | i + 1 =>
        match l[i]? with
        | none => none
        | some anc => ancestorLoop qs (anc, l.take (i + 1))

/-- `std::string::substr` -/
def substr (s : Str) (k : Nat) : Option Str := if k ≤ s.length then some (s.drop k) else none

/-- Quoted. -/
def quoted (s : Str) : Str := '"' :: (s ++ ['"'])

/-- The list of names, utilities.cpp:91-94. -/
def quotedList : List Str → Str
  | [] => []
  | x :: xs => quoted x ++ xs.flatMap fun y => ", ".toList ++ quoted y

/-- `getAddressDescription`, utilities.cpp:46-102. -/
def describe (n : Node) (a : W) (maxList : Nat) : Option Str :=
  match n.matching a with
  | [] => some "no matching nodes".toList
  | [p] => some ("node ".toList ++ quoted (n.fullPath p))
  | p :: rest =>
    match lineagePos p with
    | none => none
    | some l =>
      match ancestorLoop rest (p, l) with
      | none => none
      | some (anc, _) =>
        if maxList ≠ 0 ∧ maxList < (p :: rest).length then
          if anc = [] then some ((toString (p :: rest).length).toList ++ " nodes match".toList)
          else some ((toString (p :: rest).length).toList ++ " nodes under ".toList ++ quoted (n.fullPath anc) ++ " match".toList)
        else
          match (p :: rest).mapM fun q => substr (n.fullPath q) (if anc = [] then 0 else (n.fullPath anc).length + 1) with
          | none => none
          | some names =>
            some ("nodes ".toList ++ quotedList names ++ if anc = [] then [] else " under ".toList ++ quoted (n.fullPath anc))

end Node
end Verif
