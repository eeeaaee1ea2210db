import Verif.Model.Dump
/-!
# The classes that hold the hardware in Python

Model of /repo/uhal/gui/pkg/uhal/gui/utilities/hardware.py; line numbers refer to this file. `Node`, `IPEndPoint` and `HardwareStruct` are copies of what a `ConnectionManager` has.

Simplifications: the values of nodes (`set_value`), the texts that are printed and the way in which the `ConnectionManager` is made are left out; an exception that leaves a function is `none`.
-/

set_option autoImplicit false

namespace Verif.HwStruct
open Verif

/-- The attributes of a `Node` but for the children, lines 10-29. -/
structure Entry where
  id : Str
  parent : Str
  addr : W
  mode : Mode
  perm : Permission
  mask : W
  size : W
  tags : Str
deriving DecidableEq, Repr

/-- `Node`, lines 8-37. -/
inductive Item
  | mk (e : Entry) (kids : List Item)

/-- Lines 16-28: the attributes of `n` below the node with the id `parent`. -/
def entry (parent : Str) (d : NodeData) : Entry where
  id := if parent ≠ [] then parent ++ '.' :: d.uid else d.uid
  parent := parent
  addr := d.addr
  mode := d.mode
  perm := d.perm
  mask := d.mask
  size := d.size
  tags := d.tags

/-- `getNodes("[^.]*")`, lines 43-44 and 219-223. -/
def parents (n : Node) : List Str := Dump.matching (fun s => !s.contains '.') n

/-- The loops of lines 31-34 and 207-212; `rec`: the construction of a `Node`. -/
def loop (rec : Node → Option Item) (n : Node) : List Str → Option (List Item)
  | [] => some []
  | s :: ss =>
    match (n.getNode s).bind n.sub? with
    | none => none
    | some v => match rec v with
      | none => none
      | some k => (loop rec n ss).map fun l => k :: l

/-- `Node.__init__`, lines 10-34. The first argument bounds the depth. -/
def node : Nat → Str → Node → Option Item
  | 0, _, _ => none
  | fuel + 1, parent, n => (loop (node fuel (entry parent n.d).id) n (parents n)).map fun l => .mk (entry parent n.d) l

/-- The nodes of a device, lines 203-214. -/
def device (n : Node) : Option (List Item) := loop (node n.count []) n (parents n)

/-- `__load_hardware`, lines 193-214: the names of the devices with their nodes. -/
def load (devs : List (Str × Node)) : Option (List (Str × List Item)) := devs.mapM fun d => (device d.2).map fun l => (d.1, l)

end Verif.HwStruct
