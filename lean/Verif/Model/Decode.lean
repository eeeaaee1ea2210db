import Verif.Model.HwProg
/-!
# The address decoder generator

/repo/uhal/tools/scripts/gen_ipbus_addr_decode: from an address table to the VHDL function that selects a slave of the firmware for
an address. Line numbers refer to that file.

Simplifications:
* Errors that are recorded end the run at once here; the script goes on looking for more errors and then exits without writing the file
  (lines 247-250, 283-285). Uncaught exceptions (not a number, too many bits, logarithm of 0) end it too. Both are `none`.
* `int(…)` of the `width` entry is a parameter; negative widths are not modelled.
* `math.ceil(math.log(x, 2))` is a parameter `clog`, as it is computed with floating point numbers: for 2^29 and 2^31 it gives 30 and 32
  (`math.log(2**29, 2)` is 29.000000000000004), see `pyClog`. `math.floor(math.log(x, 2))` is exact for the numbers of slaves that can occur.
* `BitArray` (lines 29-72) is a 32-bit word; its constructor refuses larger numbers.
* The VHDL file is represented by the numbers in it; `upper()` is that of ASCII.
-/

set_option autoImplicit false

namespace Verif

/-- Apply a function that may fail to each element of a list. -/
def mapAll {α β : Type} (f : α → Option β) : List α → Option (List β)
  | [] => some []
  | x :: xs => (f x).bind fun y => (mapAll f xs).map fun ys => y :: ys

/-- `class node`, lines 75-99. The name is split at dots. -/
inductive GNode
  | mk (name : List Str) (addr : Nat) (flag : Bool) (size : Nat) (width : Option Nat) (desc : List GNode)

namespace GNode

def name : GNode → List Str
  | mk x _ _ _ _ _ => x
def addr : GNode → Nat
  | mk _ x _ _ _ _ => x
def flag : GNode → Bool
  | mk _ _ x _ _ _ => x
def size : GNode → Nat
  | mk _ _ _ x _ _ => x
def width : GNode → Option Nat
  | mk _ _ _ _ x _ => x
def desc : GNode → List GNode
  | mk _ _ _ _ _ x => x

/-- `nodetree.add`, lines 107-117: from the root down along the parts of the name; `pre` is what has been found. -/
def addTo (n : GNode) : List Str → List Str → GNode → GNode
  | _, [], np => np
  | pre, x :: rest, .mk nm a f s w desc =>
    match desc.findIdx? fun k => decide (k.name = pre ++ [x]) with
    | none => .mk nm a f s w (desc ++ [n])
    | some j => .mk nm a f s w (desc.modify j (addTo n (pre ++ [x]) rest))

/-- `nodetree.add` -/
def add (t n : GNode) : GNode := addTo n [] n.name t

mutual
/-- `get_desc`, lines 173-178 -/
def getDesc : GNode → List GNode
  | mk _ _ _ _ _ desc => getDescL desc
def getDescL : List GNode → List GNode
  | [] => []
  | k :: ks => k :: getDesc k ++ getDescL ks
end

mutual
/-- `get_leaves`, lines 182-190 -/
def getLeaves : GNode → List GNode
  | mk _ _ _ _ _ desc => getLeavesL desc
def getLeavesL : List GNode → List GNode
  | [] => []
  | k :: ks => (if k.flag then [] else if k.desc.isEmpty then [k] else getLeaves k) ++ getLeavesL ks
end

mutual
/-- `get_flagged_nodes`, lines 194-201 -/
def flagged : GNode → List GNode
  | mk _ _ _ _ _ desc => flaggedL desc
def flaggedL : List GNode → List GNode
  | [] => []
  | k :: ks => (if k.flag then [k] else flagged k) ++ flaggedL ks
end

/-- `max_addr`, lines 158-160: the loop keeps the value of its last turn. -/
def maxAddr (l : List GNode) : Nat :=
  l.foldl (fun _ i => i.addr + 2 ^ i.width.getD 0) 0

/-- The width of a node, lines 144-166, when the nodes below have got theirs. -/
def widthOf (clog : Nat → Nat) (n : GNode) : Option Nat :=
  match flagged n with
  | [] =>
    let w := n.width.getD 0
    if n.size > 2 ^ w then none
    else if (getDesc n).any (fun i => decide (i.addr + i.size > n.addr + 2 ^ w)) then none
    else some w
  | l =>
    if (getLeaves n).isEmpty = false then none
    else match n.width with
      | none => if maxAddr l ≤ n.addr then none else some (clog (maxAddr l - n.addr))
      | some w => if maxAddr l > n.addr + 2 ^ w then none else some w

/-- The end of `_assign_width`, lines 142-169. -/
def finish (clog : Nat → Nat) (n : GNode) : Option GNode :=
  match widthOf clog n with
  | none => none
  | some w => if n.addr % 2 ^ w ≠ 0 then none else some (.mk n.name n.addr n.flag n.size (some w) n.desc)

mutual
/-- `_assign_width`, lines 140-169. The descendants are sorted (line 141) after the nodes below have got their widths instead of before,
which makes no difference, as widths play no role in the order. -/
def assign (clog : Nat → Nat) : GNode → Option GNode
  | mk nm a f s w desc => (assignL clog desc).bind fun ks => finish clog (.mk nm a f s w (stableSort addr ks))
/-- A node that is not an endpoint: only the endpoints below change. -/
def assignIn (clog : Nat → Nat) : GNode → Option GNode
  | mk nm a f s w desc => (assignL clog desc).map fun ks => .mk nm a f s w ks
/-- All of a list of descendants. -/
def assignL (clog : Nat → Nat) : List GNode → Option (List GNode)
  | [] => some []
  | k :: ks => (if k.flag then assign clog k else assignIn clog k).bind fun k' => (assignL clog ks).map fun ks' => k' :: ks'
end

end GNode

/-- One character of the argument of `std_match`. -/
inductive Pat
  | any | one | zero
deriving DecidableEq, Repr

/-- A slave: `id`, base address, and the width of its addresses. -/
structure Slave where
  id : List Str
  base : W
  width : Nat
deriving DecidableEq, Repr

/-- What the VHDL file says. -/
structure Decoder where
  slaves : List Slave
  /-- the constants, lines 298-302 -/
  consts : List (Str × Nat)
  /-- the conditions in order, lines 313-330 -/
  rules : List (List Pat)
  /-- `IPBUS_SEL_WIDTH`, lines 337-341 -/
  selWidth : Nat

namespace Decoder

/-- `~mask_bits`: the bits from `w` up. -/
def hiMask (w : Nat) : W := ~~~ BitVec.ofNat 32 (2 ^ w - 1)

/-- `or_prod`, lines 269, 279 -/
def orProd (l : List Slave) : W := l.foldl (fun x s => x ||| (s.base &&& hiMask s.width)) 0#32

/-- `and_prod`, lines 270, 280 -/
def andProd (l : List Slave) : W := l.foldl (fun x s => x &&& (s.base ||| ~~~ hiMask s.width)) 0xFFFFFFFF#32

/-- `addr_mask`, line 283 -/
def addrMask (l : List Slave) : W := orProd l &&& ~~~ andProd l

/-- The pattern of a slave, lines 314-328: bit 31 first. -/
def pattern (mask base : W) : List Pat :=
  ((List.range 32).reverse).map fun i => if mask.getLsbD i = false then .any else if base.getLsbD i then .one else .zero

/-- `"N_SLV_"+id.upper().replace(".","_")`, line 300. -/
def constName (id : List Str) : Str :=
  "N_SLV_".toList ++ (((".".toList).intercalate id).map fun ch => if ch.toUpper = '.' then '_' else ch.toUpper)

/-- The overlap check, lines 256-261, for one ordered pair. -/
def clash (a b : GNode) : Bool := decide (a.addr ≤ b.addr ∧ a.addr + 2 ^ a.width.getD 0 - 1 ≥ b.addr)

/-- The overlap check, lines 256-261: all ordered pairs of different endpoints. -/
def clashes : List GNode → Bool
  | [] => false
  | a :: l => l.any (fun b => clash a b || clash b a) || clashes l

/-- The slave for an endpoint, lines 273-281. -/
def slaveOf (n : GNode) : Option Slave :=
  let w := n.width.getD 0
  if n.addr < 2 ^ 32 ∧ 2 ^ w - 1 < 2 ^ 32 then
    if BitVec.ofNat 32 n.addr &&& BitVec.ofNat 32 (2 ^ w - 1) ≠ 0#32 then none else some ⟨n.name, BitVec.ofNat 32 n.addr, w⟩
  else none

/-- From line 252 on. -/
def ofTree (t : GNode) : Option Decoder :=
  let l := GNode.flagged t
  if clashes l then none
  else (mapAll slaveOf l).map fun ss =>
    ⟨ss, ss.mapIdx fun i s => (constName s.id, i),
      if ss.length < 2 then [] else ss.map fun s => pattern (addrMask ss &&& hiMask s.width) s.base,
      if ss.length = 0 then 1 else ss.length.log2 + 1⟩

/-- `std_match(addr, pattern)` of the VHDL library: `-` matches everything. -/
def stdMatch (a : W) (p : List Pat) : Bool :=
  (((List.range 32).reverse.map fun i => a.getLsbD i).zip p).all fun x =>
    match x.2 with
    | .any => true
    | .one => x.1
    | .zero => !x.1

/-- The generated function `ipbus_sel_…`, lines 304-333; `to_unsigned` keeps `IPBUS_SEL_WIDTH` bits. -/
def sel (d : Decoder) (a : W) : Nat :=
  (if d.slaves.length < 2 then 0
   else match d.rules.findIdx? (stdMatch a) with
    | some i => i
    | none => d.slaves.length) % 2 ^ d.selWidth

end Decoder

namespace Gen
variable (int : Str → Option Nat) (clog : Nat → Nat)

/-- `int(f["width"]) if "width" in f else None`, lines 236, 243; `none`: exception. -/
def widthEntry (fw : List (Str × Str)) : Option (Option Nat) :=
  match fw.lookup "width".toList with
  | none => some none
  | some s => (int s).map some

/-- One turn of the loop, lines 238-244. -/
def entry (n : Node) (id : Str) : Option GNode :=
  (devNode n id).bind fun d => (widthEntry int d.fw).map fun w =>
    .mk (Node.splitDots id []) d.addr.toNat (decide (d.fw.lookup "type".toList = some "endpoint".toList))
      (if d.mode = .incremental then d.size.toNat else 1) w []

/-- Lines 234-244: the tree of the script. -/
def tree (n : Node) : Option GNode :=
  (widthEntry int n.d.fw).bind fun w => (mapAll (entry int n) n.getNodes).map fun es =>
    es.foldl GNode.add (.mk ["TOP".toList] 0 false 0 w [])

/-- The script. -/
def run (n : Node) : Option Decoder :=
  (tree int n).bind fun t => (GNode.assign clog t).bind Decoder.ofTree

end Gen

/-- `int(math.ceil(math.log(x, 2)))` in double precision, for 0 < x ≤ 2^33 (line 162). -/
def pyClog (x : Nat) : Nat :=
  if x = 2 ^ 29 then 30 else if x = 2 ^ 31 then 32 else if 2 ^ x.log2 = x then x.log2 else x.log2 + 1

end Verif
