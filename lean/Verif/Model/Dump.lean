import Verif.Model.Gui
import Verif.Model.Overlap
/-!
# The script that prints the values of registers

Model of /repo/uhal/tools/scripts/uhal_inspect_registers.py. Paths without a directory are this file.

Simplifications: the regular expression is the predicate `mat` of the names that it matches as a whole; characters are compared by their number (bytes in C++, code points in Python: the same
for ASCII); the options of the script are not modelled, the node named on the command line is `n`. An exception that leaves a function is `none`.
-/

set_option autoImplicit false

namespace Verif.Dump
open Verif

/-- `<=` of strings, used by `std::sort` (/repo/uhal/uhal/src/common/Node.cpp:511) and `sorted` (line 19). -/
def strLe : Str → Str → Bool
  | [], _ => true
  | _ :: _, [] => false
  | a :: as, b :: bs => decide (a.toNat < b.toNat) || (a == b && strLe as bs)

/-- Puts a name into a sorted list. -/
def ins (s : Str) : List Str → List Str
  | [] => [s]
  | t :: ts => if strLe s t then s :: t :: ts else t :: ins s ts

/-- The result of sorting (`std::sort`, `sorted`; equal strings cannot be told apart). -/
def sortStr : List Str → List Str
  | [] => []
  | s :: ss => ins s (sortStr ss)

/-- `getNodes(regex)`, /repo/uhal/uhal/src/common/Node.cpp:492-513. -/
def matching (mat : Str → Bool) (n : Node) : List Str := sortStr (n.getNodes.filter mat)

/-- The loop of `snapshot`, lines 19-22: the names of the nodes that are read. `none`: `getNode` throws. -/
def loop (n : Node) : List Str → Option (List Str)
  | [] => some []
  | s :: ss =>
    match (n.getNode s).bind n.sub? with
    | none => none
    | some v => if v.d.perm = .write then loop n ss else (loop n ss).map fun l => s :: l

/-- The names in `regValues`, lines 17-22. -/
def names (mat : Str → Bool) (n : Node) : Option (List Str) := loop n (sortStr (matching mat n))

/-- What `snapshot` asks of the device, lines 19-23. -/
def prog (l : List Str) : List DevCall := l.map (fun s => .node s .read) ++ [.dispatch]

/-- The loop of the printing, lines 51-52: stops at a value that is not valid (`hex` throws). `see`: what is seen of a result. -/
def shown (see : DevRes → Option ValOut) : List Str → List DevRes → List (Str × W)
  | s :: ss, r :: rs => match see r with
    | some (.data [w]) => (s, w) :: shown see ss rs
    | _ => []
  | _, _ => []

/-- The lines that are printed: none if `dispatch` throws, lines 23, 51-52. -/
def output (see : DevRes → Option ValOut) (l : List Str) (rs : List DevRes) : List (Str × W) :=
  match rs.getLast? with
  | some r => if (see r).isSome then shown see l rs else []
  | none => []

/-- A line, line 52; `hex` of Python, which calls `__index__` (/repo/uhal/python/src/common/cactus_pycohal.cpp:272), or `__hex__` (145-151, 274) in Python 2. -/
def line (p : Str × W) : Str := " + ".toList ++ p.1 ++ " : 0x".toList ++ Overlap.hexNum 8 p.2.toNat

end Verif.Dump
