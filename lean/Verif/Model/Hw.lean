import Verif.Model.AddrDesc
/-!
# HwInterface

/repo/uhal/uhal/src/common/HwInterface.cpp, include/uhal/HwInterface.hpp: which client the nodes of a device use, over the life of
`HwInterface` objects.

Simplifications:
* An object is identified by its address, a number; a new object may get any address that is not in use. Clients are numbers.
* The node tree passed to the constructor is fresh, and only `HwInterface` objects hold on to it (`ConnectionManager::getDevice`,
  src/common/ConnectionManager.cpp:136-184). It is deleted with the last of them.
* `operator=` is not declared in the class, so that the compiler generates it: it assigns the members.
-/

set_option autoImplicit false

namespace Verif

/-- A node tree with `mHw` of each node (`none`: NULL). -/
structure HwTree where
  node : Node
  hw : List Nat → Option Nat

/-- The members of `HwInterface`, include/uhal/HwInterface.hpp:158-162. -/
structure HwObj where
  client : Nat
  tree : Nat
deriving DecidableEq

/-- Live objects, live node trees, and `mNode` of each client (a `weak_ptr`). -/
structure HwWorld where
  objs : List (Nat × HwObj) := []
  trees : List (Nat × HwTree) := []
  next : Nat := 0
  nodeOf : Nat → Option Nat := fun _ => none

/-- What programs do with `HwInterface` objects. -/
inductive HwOp
  | create (a : Nat) (client : Nat) (n : Node)
  | copy (a : Nat) (src : Nat)
  | assign (dst : Nat) (src : Nat)
  | destroy (a : Nat)

/-- `claimNode`, src/common/HwInterface.cpp:70-76: `mHw` of the node and, recursively, of the children. -/
def claimNode (h : Nat) : Node → List Nat → Option Nat
  | _, [] => some h
  | n, i :: p => match n.kids[i]? with
    | none => none
    | some k => claimNode h k p

namespace HwWorld

/-- Trees that no object refers to are deleted (`shared_ptr`). -/
def gc (w : HwWorld) : HwWorld :=
  { w with trees := w.trees.filter fun t => w.objs.any fun o => decide (o.2.tree = t.1) }

/-- A new object, HwInterface.cpp:46-62: both constructors. -/
def add (w : HwWorld) (a client : Nat) (n : Node) : HwWorld :=
  { objs := (a, ⟨client, w.next⟩) :: w.objs, trees := (w.next, ⟨n, claimNode a n⟩) :: w.trees, next := w.next + 1,
    nodeOf := fun c => if c = client then some w.next else w.nodeOf c }

/-- One step. `none`: not possible (an address in use, or no object at the address). -/
def step (w : HwWorld) : HwOp → Option HwWorld
  | .create a client n => match w.objs.lookup a with
    | none => some (w.add a client n)
    | some _ => none
  | .copy a src => match w.objs.lookup a, w.objs.lookup src with
    | none, some o => match w.trees.lookup o.tree with
      | some t => some (w.add a o.client t.node.clone)
      | none => none
    | _, _ => none
  | .assign dst src => match w.objs.lookup dst, w.objs.lookup src with
    | some _, some o => some ({ w with objs := (dst, o) :: w.objs.filter fun x => decide (x.1 ≠ dst) } : HwWorld).gc
    | _, _ => none
  | .destroy a => match w.objs.lookup a with
    | some _ => some ({ w with objs := w.objs.filter fun x => decide (x.1 ≠ a) } : HwWorld).gc
    | none => none

/-- A history. -/
def run (w : HwWorld) : List HwOp → Option HwWorld
  | [] => some w
  | op :: ops => (w.step op).bind fun w' => w'.run ops

/-- Where a call on a node goes: `mHw->getClient()`, src/common/Node.cpp:522-703. -/
inductive Use
  | client (c : Nat)
  /-- `mHw` is NULL, or there is no object at this address any more: undefined behaviour -/
  | ub
  | noNode
deriving DecidableEq

/-- A call on the node at position `p` of the object at `a`. -/
def use (w : HwWorld) (a : Nat) (p : List Nat) : Use :=
  match w.objs.lookup a with
  | none => .noNode
  | some o => match w.trees.lookup o.tree with
    | none => .noNode
    | some t => match t.node.sub? p with
      | none => .noNode
      | some _ => match t.hw p with
        | none => .ub
        | some h => match w.objs.lookup h with
          | none => .ub
          | some o' => .client o'.client

/-- `getAddressDescription(aClient, …)`, src/common/detail/utilities.cpp:104-111. -/
def message (w : HwWorld) (client : Nat) (a : W) (maxList : Nat) : Option Str :=
  match (w.nodeOf client).bind fun i => w.trees.lookup i with
  | some t => t.node.describe a maxList
  | none => some []

end HwWorld
end Verif
