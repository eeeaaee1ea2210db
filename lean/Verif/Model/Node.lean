import Verif.Model.Xml
import Verif.Model.Client
/-!
# Node trees

Models `Node` (copying, iteration, lookup, access), `NodeTreeBuilder` (from XML elements to a node tree,
with modules and the cache of address files) and `getAddressOverlaps`. Paths are relative to `/repo/uhal/uhal`.

Simplifications (all of them):
* A node is its attributes and the list `mChildren`. `mParent` is the position in the tree (a node is
  identified by the list of child positions leading to it). `mHw` is the client that a call is made on.
* `mChildrenMap` (unordered map from id to child) is represented by a number in the child, `rank`: the turn in
  which the child was inserted. `unordered_map::insert` does not replace, so of several children with the same
  id the one with the smallest rank is found.
* Unordered maps from strings to strings (parameters, firmware info) are association lists; `insert` does not
  replace.
* Of derived node classes (`DerivedNodeFactory`) there is only the name of the class of a node (`ty`): `create` copies the node
  (`T(const Node&)`), `T::clone` (include/uhal/DerivedNode.hpp:52-58) copies it with its class; what a user class adds is not modelled.
* pugixml, the file system and shell expansion are outside the model: a file is an `Xml` tree of the elements
  called `node`; `Files.expand` gives the paths that a file expression refers to.
* `std::sort` is a parameter (`Sorter`): any function that returns its argument in ascending order of address.
-/

set_option autoImplicit false

namespace Verif

/-- `defs::BlockReadWriteMode`, include/uhal/definitions.hpp:53. -/
inductive Mode
  | single | incremental | nonIncremental | hierarchical
deriving DecidableEq, Repr

/-- `defs::NodePermission`, include/uhal/definitions.hpp:50: `READ=0x1, WRITE=0x2, READWRITE=0x3`. -/
inductive Permission
  | read | write | readWrite
deriving DecidableEq, Repr

/-- `mPermission & defs::READ` -/
def Permission.canRead : Permission → Bool
  | .read => true | .write => false | .readWrite => true

/-- `mPermission & defs::WRITE` -/
def Permission.canWrite : Permission → Bool
  | .read => false | .write => true | .readWrite => true

/-- The data members of `Node`, include/uhal/Node.hpp:334-379, default values of src/common/Node.cpp:51-71. -/
structure NodeData where
  uid : Str := []
  part : W := 0#32
  addr : W := 0#32
  mask : W := 0xFFFFFFFF#32
  perm : Permission := .readWrite
  mode : Mode := .hierarchical
  size : W := 1#32
  tags : Str := []
  desc : Str := []
  module : Str := []
  cls : Str := []
  /-- the name with which the creator of the object is registered, if it is not a plain `Node` (its dynamic type) -/
  ty : Str := []
  pars : List (Str × Str) := []
  fw : List (Str × Str) := []
  /-- turn of insertion into the parent's `mChildrenMap` -/
  rank : Nat := 0
deriving DecidableEq, Repr

/-- A node with its children (`mChildren`). -/
inductive Node
  | mk (d : NodeData) (kids : List Node)
deriving Repr

namespace Node

def d : Node → NodeData
  | mk d _ => d

def kids : Node → List Node
  | mk _ k => k

/-! ## Copying -/

mutual
/-- `Node(const Node&)`, src/common/Node.cpp:73-101: all attributes, the children cloned in order, and
`mChildrenMap` filled in the order of `mChildren`. -/
def clone : Node → Node
  | mk d kids => mk d (cloneKids kids 0)
/-- The loop over the children: clone number `i` and insert it into the map. -/
def cloneKids : List Node → Nat → List Node
  | [], _ => []
  | k :: ks, i => mk { (clone k).d with rank := i } (clone k).kids :: cloneKids ks (i + 1)
end

/-- `operator=`, src/common/Node.cpp:104-143: like the copy constructor, but `mFirmwareInfo` keeps the value
of the object assigned to, and so does the class. (The old children are deleted.) -/
def assign (self src : Node) : Node :=
  mk { src.d with fw := self.d.fw, ty := self.d.ty, rank := self.d.rank } (cloneKids src.kids 0)

/-! ## Positions and lookup -/

/-- The node at a position (a pointer into the tree). -/
def sub? : Node → List Nat → Option Node
  | n, [] => some n
  | mk _ kids, i :: is => match kids[i]? with
    | none => none
    | some k => k.sub? is

/-- `mChildrenMap.find`: of the children with this id the one inserted first, as a position in `mChildren`. -/
def lookupFrom (uid : Str) : List Node → Nat → Option (Nat × Nat) → Option (Nat × Nat)
  | [], _, best => best
  | k :: ks, i, best =>
    lookupFrom uid ks (i + 1)
      (if k.d.uid = uid ∧ best.all (fun b => decide (k.d.rank < b.2)) then some (i, k.d.rank) else best)

/-- `mChildrenMap.find` -/
def lookup (n : Node) (uid : Str) : Option Nat := (lookupFrom uid n.kids 0 none).map (·.1)

/-- Splitting at dots: the `do … while` loop of `getNode` with `find('.')` and `substr`,
src/common/Node.cpp:424-437, 455-474. (`acc` is the part since `lStartIdx`, reversed.) -/
def splitDots : Str → Str → List Str
  | [], acc => [acc.reverse]
  | '.' :: s, acc => acc.reverse :: splitDots s []
  | ch :: s, acc => splitDots s (ch :: acc)

/-- The descent of `getNode` along a list of ids; `none` is `NoBranchFoundWithGivenUID`. -/
def descend (n : Node) : List Str → Option (List Nat)
  | [] => some []
  | x :: xs =>
    match n.lookup x with
    | none => none
    | some i =>
      match n.kids[i]? with
      | none => none
      | some k => match k.descend xs with
        | none => none
        | some is => some (i :: is)
termination_by xs => xs.length

/-- `getNode`, src/common/Node.cpp:441-475: the position of the node found. -/
def getNode (n : Node) (s : Str) : Option (List Nat) :=
  if s = [] then some [] else n.descend (splitDots s [])

/-- `hasNode`, src/common/Node.cpp:411-438: the same loop with a Boolean result. -/
def hasLoop (n : Node) : List Str → Bool
  | [] => true
  | x :: xs =>
    match n.lookup x with
    | none => false
    | some i =>
      match n.kids[i]? with
      | none => false
      | some k => k.hasLoop xs
termination_by xs => xs.length

/-- `hasNode`, src/common/Node.cpp:411-438. -/
def hasNode (n : Node) (s : Str) : Bool :=
  if s = [] then true else n.hasLoop (splitDots s [])

/-- `getAncestors` followed by dropping everything up to the ancestor (`getRelativePath`,
src/common/Node.cpp:221-242): the nodes on the way from `n` (exclusive) to the position. -/
def lineage (n : Node) : List Nat → List Node
  | [] => []
  | i :: is => match n.kids[i]? with
    | none => []
    | some k => k :: k.lineage is

/-- The concatenation loop of `getPath` and `getRelativePath`: ids with a dot behind each (empty ids are
skipped), then the last character cut off. src/common/Node.cpp:203-217, 227-241. -/
def joinIds (l : List Node) : Str :=
  (l.flatMap (fun k => if k.d.uid.length ≠ 0 then k.d.uid ++ ['.'] else [])).dropLast

/-- `getRelativePath`, for the node at a position below `n`. -/
def relPath (n : Node) (pos : List Nat) : Str := joinIds (n.lineage pos)

/-- `getPath`, src/common/Node.cpp:197-218, for the node at a position of the tree with root `n`. -/
def fullPath (n : Node) (pos : List Nat) : Str := joinIds (n :: n.lineage pos)

/-! ## Iteration -/

/-- `const_iterator`: `mBegin` (here only whether it is null) and `mItStack` — iterators into the `mChildren`
vectors, represented by the position (deepest first). include/uhal/Node.hpp:92-118 -/
structure Iter where
  live : Bool := true
  stack : List Nat := []
deriving DecidableEq, Repr

/-- `value()`, src/common/Node.cpp:763-766. -/
def Iter.value (n : Node) (it : Iter) : Option Node := n.sub? it.stack.reverse

/-- The loop at the end of `next`, src/common/Node.cpp:814-825: advance the innermost iterator; at the end of
the vector of the enclosing node (`mBegin` or the next entry of the stack) drop it and go on with the next. -/
def Iter.up (n : Node) : List Nat → Iter
  | [] => { live := false, stack := [] }
  | i :: st =>
    match n.sub? st.reverse with
    | none => { live := false, stack := [] }
    | some parent => if i + 1 ≠ parent.kids.length then { live := true, stack := (i + 1) :: st } else Iter.up n st

/-- `next`, src/common/Node.cpp:783-830; the Boolean is the return value. -/
def Iter.next (n : Node) (it : Iter) : Iter × Bool :=
  if it.live = false then (it, false) else
  match it.stack with
  | [] => if n.kids.length ≠ 0 then ({ it with stack := [0] }, true) else ({ it with live := false }, false)
  | st =>
    match it.value n with
    | none => ({ live := false, stack := [] }, false)
    | some v =>
      if v.kids.length ≠ 0 then ({ it with stack := 0 :: st }, true)
      else (Iter.up n st, (Iter.up n st).live)

/-- The loop of `getNodes()`, src/common/Node.cpp:478-489 (`lIt != end()` compares with the null iterator),
and of `getAddressOverlaps`, src/common/detail/utilities.cpp:122-124: the positions visited. Runs at most
`fuel` turns. -/
def iterate (n : Node) : Nat → Iter → List (List Nat)
  | 0, _ => []
  | fuel + 1, it =>
    match it.next n with
    | (_, false) => []
    | (it', true) => it'.stack.reverse :: iterate n fuel it'

mutual
/-- Number of nodes in a tree. -/
def count : Node → Nat
  | mk _ kids => 1 + countL kids
def countL : List Node → Nat
  | [] => 0
  | k :: ks => count k + countL ks
end

/-- The positions visited by a complete iteration (more turns change nothing, see `iterate_fuel`). -/
def positions (n : Node) : List (List Nat) := iterate n n.count {}

/-- `getNodes()`, src/common/Node.cpp:478-489. -/
def getNodes (n : Node) : List Str := (positions n).map n.relPath

end Node

/-! ## Access -/

/-- Exceptions thrown by `Node`. -/
inductive NodeExc
  | writeAccessDenied | readAccessDenied | bulkOnSingle | tooLarge | offsetFifo | offsetSingle
deriving DecidableEq, Repr

/-- What a call on a node does: it throws, or it calls the client. -/
inductive NodeOut
  | throws (e : NodeExc)
  | call (op : Op)
deriving DecidableEq, Repr

/-- The access functions of `Node`. -/
inductive NodeCall
  | write (v : W)
  | writeBlock (vs : List W)
  | writeBlockOffset (vs : List W) (off : W)
  | read
  | readBlock (n : W)
  | readBlockOffset (n off : W)
deriving DecidableEq, Repr

/-- `mMode` as the argument of `writeBlock`/`readBlock`: the client only tests for `INCREMENTAL`
(src/common/ProtocolIPbusCore.cpp:334, 355, 415, 433). -/
def Mode.inc : Mode → Bool
  | .incremental => true
  | _ => false

/-- The access functions, src/common/Node.cpp:516-698. `aValues.size()` is 64 bits wide; `aSize+aOffset` is
computed in 32 bits, `aValues.size()+aOffset` in 64. -/
def NodeData.access (d : NodeData) : NodeCall → NodeOut
  | .write v =>
    if d.perm.canWrite then
      if d.mask = 0xFFFFFFFF#32 then .call (.write d.addr v)
      else if d.perm.canRead then .call (.writeMasked d.addr v d.mask)
      else .throws .writeAccessDenied
    else .throws .writeAccessDenied
  | .writeBlock vs =>
    if d.mode = .single ∧ vs.length ≠ 1 then .throws .bulkOnSingle
    else if d.size ≠ 1#32 ∧ vs.length > d.size.toNat then .throws .tooLarge
    else if d.perm.canWrite then .call (.writeBlock d.addr vs d.mode.inc)
    else .throws .writeAccessDenied
  | .writeBlockOffset vs off =>
    if d.mode = .nonIncremental then .throws .offsetFifo
    else if d.mode = .single then .throws .offsetSingle
    else if (vs.length + off.toNat) % 2 ^ 64 > d.size.toNat then .throws .tooLarge
    else if d.perm.canWrite then .call (.writeBlock (d.addr + off) vs d.mode.inc)
    else .throws .writeAccessDenied
  | .read =>
    if d.perm.canRead then
      if d.mask = 0xFFFFFFFF#32 then .call (.read d.addr) else .call (.readMasked d.addr d.mask)
    else .throws .readAccessDenied
  | .readBlock n =>
    if d.mode = .single ∧ n ≠ 1#32 then .throws .bulkOnSingle
    else if d.size ≠ 1#32 ∧ n.toNat > d.size.toNat then .throws .tooLarge
    else if d.perm.canRead then .call (.readBlock d.addr n d.mode.inc)
    else .throws .readAccessDenied
  | .readBlockOffset n off =>
    if d.mode = .nonIncremental then .throws .offsetFifo
    else if d.mode = .single then .throws .offsetSingle
    else if (n + off).toNat > d.size.toNat then .throws .tooLarge
    else if d.perm.canRead then .call (.readBlock (d.addr + off) n d.mode.inc)
    else .throws .readAccessDenied

/-- A call on a node as a call on the client `mHw->getClient()`: an exception of the node leaves the client
alone, otherwise the client's operation is run. -/
def NodeData.run {τ : Type} (d : NodeData) (call : NodeCall) (c : Cfg) (T : Transport τ) (s : St τ) :
    NodeExc ⊕ Out (St τ) (Option Handle) :=
  match d.access call with
  | .throws e => .inl e
  | .call op => .inr (op.run c T s)

/-- `lMaxAddr1`, src/common/detail/utilities.cpp:136, in 32 bits. -/
def NodeData.maxAddr (d : NodeData) : W := if d.mode = .incremental then d.addr + d.size - 1#32 else d.addr

/-- `aNode.isChildOf(aParent)`, src/common/Node.cpp:724-727: the parent is the position without its last index. -/
def isChildPos (p q : List Nat) : Bool := match p with
  | [] => false
  | _ => decide (p.dropLast = q)

/-- The decision on a pair in the inner loop, src/common/detail/utilities.cpp:140-160. -/
def overlapPair (n1 n2 : List Nat × NodeData) : Bool :=
  if n2.2.mode = .hierarchical then false
  else if n1.2.mode ≠ .single ∨ n2.2.mode ≠ .single then true
  else if n1.2.mask &&& n2.2.mask ≠ 0#32 then
    if n1.2.mask = 0xFFFFFFFF#32 ∧ isChildPos n2.1 n1.1 = true then false
    else if n2.2.mask = 0xFFFFFFFF#32 ∧ isChildPos n1.1 n2.1 = true then false
    else true
  else false

/-- The two loops of `getAddressOverlaps`, src/common/detail/utilities.cpp:130-162, on the sorted nodes. The outer loop
leaves out the last node, for which the inner one would have nothing to do. -/
def overlapScan : List (List Nat × NodeData) → List ((List Nat × NodeData) × (List Nat × NodeData))
  | [] => []
  | n1 :: rest =>
    (if n1.2.mode = .hierarchical then []
      else ((rest.takeWhile fun n2 => decide (n2.2.addr.toNat ≤ n1.2.maxAddr.toNat)).filter (overlapPair n1)).map fun n2 => (n1, n2))
      ++ overlapScan rest

/-- Put an element in front of the first one that is not smaller. -/
def insertBy {α : Type} (key : α → Nat) (x : α) : List α → List α
  | [] => [x]
  | y :: ys => if key x ≤ key y then x :: y :: ys else y :: insertBy key x ys

/-- `std::stable_sort`. (The result of a stable sort is determined by its argument; an insertion sort computes it.) -/
def stableSort {α : Type} (key : α → Nat) : List α → List α
  | [] => []
  | x :: xs => insertBy key x (stableSort key xs)

/-- `getAddressOverlaps`, src/common/detail/utilities.cpp:120-166: all descendants, `std::stable_sort` by address, then the
loops. A node is its position and its data. -/
def Node.overlaps (n : Node) : List ((List Nat × NodeData) × (List Nat × NodeData)) :=
  overlapScan (stableSort (fun e => e.2.addr.toNat) ((positions n).filterMap fun p => (n.sub? p).map fun v => (p, v.d)))

end Verif
