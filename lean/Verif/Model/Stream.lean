import Verif.Model.Node
import Verif.Model.Log
/-!
# Texts on output streams

Model of the parts of uHAL that write to a `std::ostream` with the formatting that the stream happens to have: the beginning of a log message with the time
(/repo/uhal/log/src/common/log_inserters.time.cpp, /repo/uhal/log/include/uhal/log/log_inserters.time.hxx, /repo/uhal/log/src/common/LogLevels.cpp,
/repo/uhal/log/src/common/log_inserters.threadID.cpp), packets (/repo/uhal/uhal/src/common/detail/PacketFmt.cpp) and nodes (`Node::stream`,
/repo/uhal/uhal/src/common/Node.cpp:318-408).

A stream is its flags, fill character, width and text. Simplifications: the locale is the classic one (no grouping of digits); the stream has no errors; the name of the class
of a node is a parameter (`abi::__cxa_demangle` is not modelled); the order of the parameters of a node is that of the list. What is undefined in C++ is `none`.
-/

set_option autoImplicit false

namespace Verif.Os
open Verif

/-- `std::ios_base::basefield` -/
inductive Base
  | dec | hex | oct
deriving DecidableEq, Repr

/-- `std::ios_base::adjustfield`; none is as `right` -/
inductive Adj
  | left | right | internal
deriving DecidableEq, Repr

/-- `std::ios_base::fmtflags`, those that matter here. -/
structure Flags where
  base : Base := .dec
  upper : Bool := false
  showbase : Bool := false
  adj : Adj := .right
deriving DecidableEq, Repr

/-- A `std::ostream`. -/
structure Os where
  flags : Flags := {}
  fill : Char := ' '
  width : Nat := 0
  out : Str := []
deriving DecidableEq, Repr

/-- A digit. -/
def digitChar (upper : Bool) (d : Nat) : Char := ((if upper then "0123456789ABCDEF".toList else "0123456789abcdef".toList)[d]?).getD '?'

/-- Digits of a number, most significant first. The first argument bounds their number. -/
def digitsOf (b : Nat) (upper : Bool) : Nat → Nat → Str
  | 0, _ => []
  | k + 1, v =>
    (if v < b then [] else digitsOf b upper k (v / b)) ++ [digitChar upper (v % b)]

/-- The value of the base. -/
def Base.val : Base → Nat
  | .dec => 10 | .hex => 16 | .oct => 8

/-- The prefix of `std::showbase`. -/
def prefixOf (f : Flags) (v : Nat) : Str :=
  if f.showbase ∧ v ≠ 0 then
    match f.base with
    | .dec => []
    | .hex => if f.upper then ['0', 'X'] else ['0', 'x']
    | .oct => ['0']
  else []

/-- Padding as in `operator<<` for numbers: with `internal`, behind a hexadecimal prefix. -/
def padNum (f : Flags) (fill : Char) (width : Nat) (pre ds : Str) : Str :=
  let n := width - (pre.length + ds.length)
  match f.adj with
  | .left => pre ++ ds ++ List.replicate n fill
  | .right => List.replicate n fill ++ pre ++ ds
  | .internal => if f.base = .hex then pre ++ List.replicate n fill ++ ds else List.replicate n fill ++ pre ++ ds

/-- `o << v` for an unsigned number of at most 64 bits. -/
def Os.num (o : Os) (v : Nat) : Os :=
  { o with out := o.out ++ padNum o.flags o.fill o.width (prefixOf o.flags v) (digitsOf o.flags.base.val o.flags.upper 64 v), width := 0 }

/-- `o << s` for a character or a text: formatted output, padded. -/
def Os.text (o : Os) (s : Str) : Os :=
  let n := o.width - s.length
  { o with out := o.out ++ (if o.flags.adj = .left then s ++ List.replicate n o.fill else List.replicate n o.fill ++ s), width := 0 }

/-- `o.write ( s , n )`, `o.put ( c )`, `o << std::endl`: unformatted output. -/
def Os.raw (o : Os) (s : Str) : Os := { o with out := o.out ++ s }

/-- `o << std::setw ( n )` -/
def Os.setw (o : Os) (n : Nat) : Os := { o with width := n }
/-- `o << std::setfill ( c )` -/
def Os.setfill (o : Os) (c : Char) : Os := { o with fill := c }
/-- `o << std::hex`, `o << std::dec` -/
def Os.setBase (o : Os) (b : Base) : Os := { o with flags := { o.flags with base := b } }
/-- `o << std::uppercase` -/
def Os.uppercase (o : Os) : Os := { o with flags := { o.flags with upper := true } }

/-! ## The time -/

/-- `struct tm`, the fields that are used. -/
structure Tm where
  year : Int
  mon : Int
  mday : Int
  hour : Int
  min : Int
  sec : Int
deriving DecidableEq, Repr

/-- `time_element` of log_inserters.time.hpp (without `null`). -/
inductive Elem
  | year | yr | strmth | mth | day | hr | min | sec | usec
deriving DecidableEq, Repr

/-- `"00010203…99"`, log_inserters.time.cpp:58-67, 105-107, 115-120, 127-133. The last entry is `hi`. -/
def lutFrom (lo hi : Nat) : Str := ((List.range (hi + 1)).drop lo).flatMap fun i => [Char.ofNat (48 + i / 10), Char.ofNat (48 + i % 10)]

/-- `aStr.write ( lCharacterMapping + i , n )`: outside of the array (the final zero included) it is undefined. -/
def Os.lut (o : Os) (tbl : Str) (i : Int) (n : Nat) : Option Os :=
  if 0 ≤ i ∧ i.toNat + n ≤ tbl.length then some (o.raw ((tbl.drop i.toNat).take n)) else none

/-- `lCharacterMapping` of `strmth`, log_inserters.time.cpp:76. -/
def months : Str := "Jan Feb Mar Apr May Jun Jul Aug Sep Oct Nov Dec".toList

/-- A number of type `int`: `o << v`. Only decimal and non-negative ones are shown as they are; others depend on the base. -/
def Os.int (o : Os) (v : Int) : Os :=
  if 0 ≤ v then o.num v.toNat
  else match o.flags.base with
    | .dec => { o with
        out := o.out ++ (match o.flags.adj with
          | .left => ['-'] ++ digitsOf 10 false 64 v.natAbs ++ List.replicate (o.width - (1 + (digitsOf 10 false 64 v.natAbs).length)) o.fill
          | .right => List.replicate (o.width - (1 + (digitsOf 10 false 64 v.natAbs).length)) o.fill ++ ['-'] ++ digitsOf 10 false 64 v.natAbs
          | .internal => ['-'] ++ List.replicate (o.width - (1 + (digitsOf 10 false 64 v.natAbs).length)) o.fill ++ digitsOf 10 false 64 v.natAbs)
        width := 0 }
    | _ => o.num (2 ^ 32 - v.natAbs)

/-- `print< T >`, log_inserters.time.cpp:45-145. `i << 1` of a negative number is taken as twice the number. -/
def Elem.print (e : Elem) (o : Os) (t : Tm) (usec : Nat) : Option Os :=
  match e with
  | .year => some (o.int (t.year + 1900))
  | .yr => o.lut (lutFrom 0 99) (t.year.tmod 100 * 2) 2
  | .strmth => o.lut months (t.mon * 4) 3
  | .mth => o.lut (lutFrom 1 12) (t.mon * 2) 2
  | .day => o.lut ("xx".toList ++ lutFrom 1 31) (t.mday * 2) 2
  | .hr => o.lut (lutFrom 0 23) (t.hour * 2) 2
  | .min => o.lut (lutFrom 0 59) (t.min * 2) 2
  | .sec => o.lut (lutFrom 0 61) (t.sec * 2) 2
  | .usec => some (((o.setfill '0').setw 6).num usec)

/-- `operator<< ( aStr , _Time< TimeFmt< T0 , D0 , T1 , … > > )`, log_inserters.time.hxx:118-235: the elements, with the characters between them. (The seven overloads differ in the
number of elements.) `t`: what `localtime` returns; `none` is a null pointer, which `print` would follow. -/
def printTime (t : Option Tm) (usec : Nat) : List (Elem × Option Char) → Os → Option Os
  | [], o => some o
  | (e, d) :: r, o =>
    match (match e, t with
      | .usec, _ => e.print o ⟨0, 0, 0, 0, 0, 0⟩ usec
      | _, some t => e.print o t usec
      | _, none => none) with
    | none => none
    | some o => printTime t usec r (match d with | some c => o.text [c] | none => o)

/-- `day,'-',mth,'-',yr,' ',hr,':',min,':',sec,'.',usec`, LogLevels.cpp:33 and so on. -/
def headFmt : List (Elem × Option Char) :=
  [(.day, some '-'), (.mth, some '-'), (.yr, some ' '), (.hr, some ':'), (.min, some ':'), (.sec, some '.'), (.usec, none)]

/-- `colour_head` of the levels, LogLevels.cpp:30-36, 49-55, …, 126-132; `tid`: the number that `std::this_thread::get_id()` is printed as. -/
def head (level : Nat) (t : Option Tm) (usec tid : Nat) (o : Os) : Option Os :=
  match printTime t usec headFmt (o.text (Log.levelName level).1) with
  | none => none
  | some o => some ((((o.text " [".toList).num tid).text "]".toList).text (Log.levelName level).2)

/-! ## Packets -/

/-- One turn of the loop of `operator<< ( aStream , PacketFmt )`, PacketFmt.cpp:32-36; `k`: `lNrBytesWritten`. -/
def putByte (o : Os) (k : Nat) (b : BitVec 8) : Os :=
  let o := if k &&& 3 = 0 then ((((o.raw ['\n']).text "   @ ".toList).setw 3).setBase .dec |>.num (k >>> 2)).text " :  x".toList else o
  (((o.setw 2).setBase .hex).num b.toNat).text " ".toList

/-- The inner loop, 31-36. -/
def putBytes (o : Os) (k : Nat) : List (BitVec 8) → Os × Nat
  | [] => (o, k)
  | b :: bs => putBytes (putByte o k b) (k + 1) bs

/-- The outer loop, 30. -/
def putChunks (o : Os) (k : Nat) : List (List (BitVec 8)) → Os × Nat
  | [] => (o, k)
  | c :: cs => let r := putBytes o k c; putChunks r.1 r.2 cs

/-- `operator<< ( aStream , PacketFmt )`, PacketFmt.cpp:25-41; the data is a list of pieces. -/
def packet (o : Os) (data : List (List (BitVec 8))) : Os := { (putChunks o 0 data).1 with flags := o.flags }

/-! ## Nodes -/

/-- `( mPermission&defs::READ?'r':'-' ) << ( mPermission&defs::WRITE?'w':'-' )` -/
def perms (o : Os) (p : Permission) : Os := (o.text [if p.canRead then 'r' else '-']).text [if p.canWrite then 'w' else '-']

/-- The `switch`, Node.cpp:339-367. -/
def modeText (o : Os) (d : NodeData) : Os :=
  match d.mode with
  | .single =>
    let o := (((o.text "SINGLE register, ".toList).setBase .hex |>.text "Address 0x".toList).setw 8 |>.num d.addr.toNat).text ", ".toList
    let o := ((o.setBase .hex |>.text "Mask 0x".toList).setw 8 |>.num d.mask.toNat).text ", ".toList
    perms (o.text "Permissions ".toList) d.perm
  | .incremental =>
    let o := (((o.text "INCREMENTAL block, ".toList).setBase .dec |>.text "Size ".toList).num d.size.toNat).text ", ".toList
    let o := (o.setBase .hex |>.text "Addresses [0x".toList).setw 8 |>.num d.addr.toNat
    let o := ((o.text "-".toList).setw 8 |>.num (d.addr + d.size - 1#32).toNat).text "], ".toList
    perms (o.text "Permissions ".toList) d.perm
  | .nonIncremental =>
    let o := o.text "NON-INCREMENTAL block, ".toList
    let o := if d.size ≠ 1#32 then ((o.setBase .dec |>.text "Size ".toList).num d.size.toNat).text ", ".toList else o
    let o := ((o.setBase .hex |>.text "Address 0x".toList).setw 8 |>.num d.addr.toNat).text ", ".toList
    perms (o.text "Permissions ".toList) d.perm
  | .hierarchical => (o.setBase .hex |>.text "Address 0x".toList).setw 8 |>.num d.addr.toNat

/-- `if ( s.size() ) aStr << name << s << "\""`, Node.cpp:369-387. -/
def optText (o : Os) (name s : Str) : Os := if s.length ≠ 0 then ((o.text name).text s).text "\"".toList else o

/-- The parameters, Node.cpp:389-398. -/
def parsText (o : Os) (ps : List (Str × Str)) : Os :=
  if ps.length ≠ 0 then
    ps.foldl (fun o p => (((o.text p.1).text "=".toList).text p.2).text ";".toList) (o.text ", Parameters: ".toList)
  else o

/-- One node, Node.cpp:320-398. `ty`: the name of its class, if that is not `Node`. -/
def nodeText (o : Os) (ty : Option Str) (indent : Nat) (d : NodeData) : Os :=
  let o := (o.setfill '0').uppercase
  let o := ((o.text ['\n']).text (List.replicate indent ' ')).text "+ ".toList
  let o := ((o.text "Node \"".toList).text d.uid).text "\", ".toList
  let o := match ty with
    | some t => ((o.text "of type \"".toList).text t).text "\", ".toList
    | none => o
  let o := modeText o d
  let o := optText o ", Tags \"".toList d.tags
  let o := optText o ", Description \"".toList d.desc
  let o := optText o ", Module \"".toList d.module
  let o := optText o ", Class Name \"".toList d.cls
  parsText o d.pars

mutual
/-- `Node::stream`, Node.cpp:318-408. `cout`: the flags of `std::cout`, if the stream is another one; `cls`: the names of the classes of nodes. -/
def stream (cout : Option Flags) (cls : NodeData → Option Str) (o : Os) (indent : Nat) : Node → Os
  | .mk d kids =>
    let orig := cout.getD o.flags
    let o := nodeText o (cls d) indent d
    streams cout cls { o with flags := orig } (indent + 2) kids
/-- The loop over the children, Node.cpp:404-407. -/
def streams (cout : Option Flags) (cls : NodeData → Option Str) (o : Os) (indent : Nat) : List Node → Os
  | [] => o
  | k :: ks => streams cout cls (stream cout cls o indent k) indent ks
end

end Verif.Os
