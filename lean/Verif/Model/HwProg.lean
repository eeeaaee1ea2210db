import Verif.Model.Hw
import Verif.Spec.Prog
/-!
# Programs on a device

Calls on the nodes of an `HwInterface` by id, /repo/uhal/uhal/src/common/HwInterface.cpp:103-139, with exceptions caught by the program.
-/

set_option autoImplicit false

namespace Verif

/-- A call of the program: `hw.getNode(id).call(…)`, or `hw.dispatch()`. -/
inductive DevCall
  | node (id : Str) (call : NodeCall)
  | dispatch

/-- How a call ends. -/
inductive DevRes
  /-- `NoBranchFoundWithGivenUID` of `getNode` -/
  | noNode
  | nodeExc (e : NodeExc)
  | client (r : Res)

/-- `HwInterface::getNode(id)`, HwInterface.cpp:124-127: the attributes of the node. -/
def devNode (n : Node) (id : Str) : Option NodeData := (n.getNode id).bind fun p => (n.sub? p).map (·.d)

/-- A program, one call after the other. `none`: undefined behaviour or a call that does not end. -/
def runDev {τ : Type} (c : Cfg) (T : Transport τ) (n : Node) : List DevCall → St τ → Option (List DevRes × St τ)
  | [], s => some ([], s)
  | .node id call :: rest, s =>
    match devNode n id with
    | none => (runDev c T n rest s).map fun p => (.noNode :: p.1, p.2)
    | some d =>
      match d.run call c T s with
      | .inl e => (runDev c T n rest s).map fun p => (.nodeExc e :: p.1, p.2)
      | .inr (.ok h s') => (runDev c T n rest s').map fun p => (.client (.ok h) :: p.1, p.2)
      | .inr (.exc e s') => (runDev c T n rest s').map fun p => (.client (.exc e) :: p.1, p.2)
      | .inr .ub => none
      | .inr .loops => none
  | .dispatch :: rest, s =>
    match Op.dispatch.run c T s with
    | .ok h s' => (runDev c T n rest s').map fun p => (.client (.ok h) :: p.1, p.2)
    | .exc e s' => (runDev c T n rest s').map fun p => (.client (.exc e) :: p.1, p.2)
    | .ub => none
    | .loops => none

end Verif
