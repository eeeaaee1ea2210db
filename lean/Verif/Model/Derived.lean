import Verif.Model.Builder
/-!
# Derived node classes

/repo/uhal/uhal/include/uhal/DerivedNode.hpp, include/uhal/DerivedNodeFactory.hpp, src/common/DerivedNodeFactory.cpp and the templates of both; `Node::getNode<T>`
(include/uhal/TemplateDefinitions/Node.hxx:45-58). The conversion of nodes is in `Verif/Model/Builder.lean` (`withClass`).

Simplifications:
* A C++ class is a number. What a user class adds to `Node` is not modelled; its constructors copy the node they are given.
* Registration happens before `main`, in any order: the order is that of the list of registrations.
* The names of C++ types in messages (`typeid`) are the numbers of the classes.
-/

set_option autoImplicit false

namespace Verif.Derived

/-- `mCreators`, DerivedNodeFactory.hpp:158. -/
abbrev Factory := List (Str × Nat)

/-- `DerivedNodeFactory::add`, TemplateDefinitions/DerivedNodeFactory.hxx:43-55: a name that is there already stays as it is. -/
def add (f : Factory) (name : Str) (cls : Nat) : Factory := if (f.lookup name).isSome then f else f ++ [(name, cls)]

/-- All `RegistrationHelper` objects, DerivedNode.hpp:52-53, TemplateDefinitions/DerivedNode.hxx:38-41. -/
def register (rs : List (Str × Nat)) : Factory := rs.foldl (fun f r => add f r.1 r.2) []

/-- The C++ class of a node; `none` is `uhal::Node`. -/
def classOf (f : Factory) (n : Node) : Option Nat := f.lookup n.d.ty

/-- Outcomes of `getNode<T>`. -/
inductive Cast
  | node (p : List Nat)
  /-- `NoBranchFoundWithGivenUID` -/
  | noBranch
  /-- `BadNodeCast`: "Invalid cast of Node" id "from type" type "to" -/
  | badCast (uid : Str) (from_ : Option Nat)
deriving DecidableEq

/-- `Node::getNode<T>`, TemplateDefinitions/Node.hxx:45-58. `isA`: which classes are `T` or derived from it. If there is no such node, the handler looks for it once more and
the exception of this second call leaves it (55). The message has the type of `*this`. -/
def getNodeAs (f : Factory) (isA : Option Nat → Bool) (n : Node) (id : Str) : Cast :=
  match n.getNode id with
  | none => .noBranch
  | some p =>
    match n.sub? p with
    | none => .noBranch
    | some v => if isA (classOf f v) then .node p else .badCast v.d.uid (classOf f n)

end Verif.Derived
