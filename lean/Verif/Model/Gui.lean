import Verif.Model.HwProg
import Verif.Model.ValMem
/-!
# The graphical user interface

Model of the parts of uHAL's GUI that carry information: the tree of nodes and the monitoring of registers (/repo/uhal/gui/pkg/uhal/gui/utilities/hardware_monitoring.py), the window with
the tree (/repo/uhal/gui/pkg/uhal/gui/guis/hardware_tree.py) and the tables of registers (/repo/uhal/gui/pkg/uhal/gui/guis/hardware_table_panel.py).

Simplifications: Python 2 (`iteritems`); wxPython draws what it is told; a dictionary is a list in the order in which it is iterated, which is a parameter; a node object is its id, address
and mask. An exception that leaves the function is `none`.
-/

set_option autoImplicit false

namespace Verif.Gui
open Verif

/-- A key of `hw_tree` with its value: a device (`dev`) or a node; `none` is the value 0 of an end node. hardware_monitoring.py:16-26 -/
inductive Item
  | mk (dev : Bool) (id : Str) (addr mask : W) (kids : Option (List Item))
deriving Repr

def Item.dev : Item → Bool
  | .mk d .. => d
def Item.id : Item → Str
  | .mk _ i .. => i
def Item.kids : Item → Option (List Item)
  | .mk _ _ _ _ k => k

/-- `item.getNodes("[^.]*")`, hardware_monitoring.py:156; /repo/uhal/uhal/src/common/Node.cpp:492-513 (not sorted: only membership is asked for). -/
def top (n : Node) : List Str := n.getNodes.filter fun s => !s.contains '.'

/-- The loop of `__build_tree`, hardware_monitoring.py:153-164; `rec`: the call for the node. -/
def buildLoop (rec : Node → Option (List Item)) (n : Node) : List Str → Option (List Item)
  | [] => some []
  | s :: ss =>
    match (n.getNode s).bind n.sub? with
    | none => none
    | some v =>
      if s ∈ top n then
        if v.getNodes = [] then (buildLoop rec n ss).map fun l => .mk false v.d.uid v.d.addr v.d.mask none :: l
        else match rec v with
          | none => none
          | some ks => (buildLoop rec n ss).map fun l => .mk false v.d.uid v.d.addr v.d.mask (some ks) :: l
      else buildLoop rec n ss

/-- `__build_tree`, hardware_monitoring.py:149-164: the dictionary of a device or node, in the order of iteration `ord`. The first argument bounds the depth. -/
def build (ord : List Item → List Item) : Nat → Node → Option (List Item)
  | 0, _ => none
  | fuel + 1, n => (buildLoop (build ord fuel) n n.getNodes).map ord

/-- The entry of a device, hardware_monitoring.py:115-145. -/
def device (ord : List Item → List Item) (name : Str) (n : Node) : Option Item :=
  (build ord n.count n).map fun ks => .mk true name 0#32 0#32 (some ks)

/-- `hw_tree`: all devices of the connection file, hardware_monitoring.py:110-145. -/
def hwTree (ord : List Item → List Item) (devs : List (Str × Node)) : Option (List Item) := (devs.mapM fun d => device ord d.1 d.2).map ord

/-- The nodes that are read in a turn of the monitoring thread: end nodes that are readable, hardware_monitoring.py:69-84. -/
def polled (n : Node) : List Str := n.getNodes.filter fun s =>
  match (n.getNode s).bind n.sub? with
  | none => false
  | some v => v.getNodes.isEmpty && v.d.perm.canRead

/-- What the thread asks of a device, hardware_monitoring.py:69-92. -/
def pollProg (n : Node) : List DevCall := (polled n).map fun s => .node s .read

/-- `nodes_vs_values`, hardware_monitoring.py:84; `see`: what is seen of a value. Calls that threw have no entry. -/
def dict (see : DevRes → Option ValOut) : List Str → List DevRes → List (Str × ValOut)
  | s :: ss, r :: rs => match see r with
    | some v => (s, v) :: dict see ss rs
    | none => dict see ss rs
  | _, _ => []

/-- The text of the root item, hardware_tree.py:42. -/
def rootText : Str := "uTCA HW".toList

/-- `__get_complete_id`, hardware_tree.py:118-126, for the texts of an item and of those above it. -/
def completeId : List Str → List Str
  | [] => []
  | t :: ts => if t = rootText then [] else completeId ts ++ [t]

/-- The loop of `__fill_widget`, hardware_table_panel.py:323-341: `start_item` and `hw_tree` at the end. -/
def walk : List Str → Option Item → Option (List Item) → Option (Option Item × Option (List Item))
  | [], st, t => some (st, t)
  | _ :: _, _, none => none
  | n :: ns, st, some t => match t.find? fun k => decide (k.id = n) with
    | some k => walk ns (some k) k.kids
    | none => walk ns st (some t)

/-- What is in front of the names, hardware_table_panel.py:345-350. (`list.remove` takes away the first element that is equal.) -/
def prefixNodes (nodes : List Str) : List Str :=
  if nodes.length ≤ 2 then []
  else
    let a := nodes.erase (nodes.headD [])
    a.erase (a.getLastD [])

/-- `'.'.join(nodes)` -/
def join : List Str → Str
  | [] => []
  | [x] => x
  | x :: y :: l => x ++ ['.'] ++ join (y :: l)

/-- `(not prefix_id) and start_item.getId() or (prefix_id + '.' + start_item.getId())`, hardware_table_panel.py:364, 371. -/
def rowId (pre id : Str) : Str := if pre = [] ∧ id ≠ [] then id else pre ++ ['.'] ++ id

/-- The text of the last column: `'0'`, `'N/A'` or a value. -/
inductive Shown
  | zero | na
  | val (v : ValOut)
deriving DecidableEq, Repr

/-- `NodeWidget`, hardware_table_panel.py:11-71. -/
structure GRow where
  id : Str
  addr : W
  mask : W
  shown : Shown
deriving DecidableEq, Repr

mutual
/-- `__fill_widget_nodes`, hardware_table_panel.py:356-377. -/
def fill (pre : Str) : Item → List GRow
  | .mk _ id addr mask none => [⟨rowId pre id, addr, mask, .zero⟩]
  | .mk true _ _ _ (some ks) => fills pre ks
  | .mk false id addr mask (some ks) => ⟨rowId pre id, addr, mask, .na⟩ :: fills (rowId pre id) ks
def fills (pre : Str) : List Item → List GRow
  | [] => []
  | k :: ks => fill pre k ++ fills pre ks
end

/-- `Widget`, hardware_table_panel.py:150-219. -/
structure Widget where
  name : Str
  rows : List GRow
  /-- the background is red -/
  red : Bool := false
deriving DecidableEq, Repr

/-- `add_new_widget` and `__fill_widget`, hardware_table_panel.py:267-281, 312-353; `count`: `__children_count`. -/
def addWidget (hw : List Item) (count : Nat) (nodes : List Str) : Option Widget :=
  match nodes with
  | [] => none
  | n :: _ =>
    match walk nodes none (some hw) with
    | some (some (.mk dev id addr mask _), t) =>
      some ⟨n ++ ['_'] ++ (toString count).toList, fill (join (prefixNodes nodes)) (.mk dev id addr mask t), false⟩
    | _ => none

/-- The title, hardware_table_panel.py:177. -/
def Widget.title (w : Widget) : Str := (w.name.takeWhile fun ch => ch ≠ '_').map Char.toUpper

/-- `x in s` for strings. -/
def isIn (x : Str) : Str → Bool
  | [] => x.isEmpty
  | c :: s => x.isPrefixOf (c :: s) || isIn x s

/-- `NodeWidget.update`, hardware_table_panel.py:73-80. -/
def GRow.update (r : GRow) (info : List (Str × ValOut)) : GRow :=
  match info.lookup r.id with
  | some v => { r with shown := .val v }
  | none => r

/-- `Widget.update`, hardware_table_panel.py:205-219; `hw_info` in the order of its iteration. -/
def Widget.update (w : Widget) (hw : List (Str × List (Str × ValOut))) : Widget :=
  match (hw.map (·.1)).filter fun x => isIn x w.name with
  | [] => { w with red := true }
  | x :: _ => { w with red := false, rows := w.rows.map fun r => r.update ((hw.lookup x).getD []) }

end Verif.Gui
