import Verif.Model.Node
/-!
# The report of address overlaps

Model of `printNodeOverlapDescription` and `writeNodeOverlapReport`, /repo/uhal/uhal/src/common/detail/utilities.cpp:168-228, and of
`NodeTreeBuilder::checkForAddressCollisions`, /repo/uhal/uhal/src/common/NodeTreeBuilder.cpp:635-684. The overlaps themselves are `Node.overlaps` (Model/Node.lean).

The file system is a parameter: what it answers to each call. Simplifications: the text of `boost::posix_time::microsec_clock::local_time()` is a parameter;
once a file is open, everything can be written; the locale is the classic one; there is one process.
-/

set_option autoImplicit false

namespace Verif.Overlap
open Verif Node

/-- The digits of `std::hex` without `std::uppercase`. -/
def digits : Str := "0123456789abcdef".toList

/-- The digits of a number; the first argument bounds their number. -/
def hexNum : Nat → Nat → Str
  | 0, _ => []
  | k + 1, v => (if v < 16 then [] else hexNum k (v / 16)) ++ [(digits[v % 16]?).getD '?']

/-- `<< std::setw ( 8 ) << v` with `std::hex` and `fill ( '0' )`, utilities.cpp:172-173, for a `uint32_t`. -/
def hex8 (v : W) : Str :=
  let s := hexNum 8 v.toNat
  List.replicate (8 - s.length) '0' ++ s

/-- What is in brackets for node `d` of a pair with `other`, utilities.cpp:176-181 and 184-189. -/
def place (d other : NodeData) : Str :=
  if d.mode = .incremental then "addresses 0x".toList ++ hex8 d.addr ++ " - 0x".toList ++ hex8 (d.addr + d.size - 1#32)
  else if other.mode = .incremental then "address 0x".toList ++ hex8 d.addr
  else "address 0x".toList ++ hex8 d.addr ++ ", mask 0x".toList ++ hex8 d.mask

/-- `printNodeOverlapDescription`, utilities.cpp:168-194. A node is its position in the tree with root `n`, and its data. -/
def describe (n : Node) (x y : List Nat × NodeData) : Str :=
  "Node '".toList ++ n.fullPath x.1 ++ "' [".toList ++ place x.2 y.2 ++ "] overlaps with '".toList ++ n.fullPath y.1 ++ "' [".toList ++
    place y.2 x.2 ++ "].".toList

/-- `lReport` after the loop, utilities.cpp:200-207. -/
def body (n : Node) (l : List ((List Nat × NodeData) × (List Nat × NodeData))) : Str :=
  l.flatMap fun p => describe n p.1 p.2 ++ ['\n']

/-- What is written to the file, utilities.cpp:215-218; `clock`: the time. -/
def contents (n : Node) (l : List ((List Nat × NodeData) × (List Nat × NodeData))) (header clock : Str) : Str :=
  header ++ ['\n'] ++ "Written at ".toList ++ clock ++ ".".toList ++ ['\n'] ++ ['\n'] ++ body n l

/-- Answers of the operating system. `none`: the function throws `filesystem_error`. -/
structure Fs where
  /-- `getenv ( "USER" )` -/
  user : Option Str
  isDirectory : Str → Option Bool
  createDirectories : Str → Option Bool
  /-- `permissions`: whether it succeeds -/
  chmod : Str → Bool
  isRegularFile : Str → Option Bool
  /-- whether the file can be opened for writing -/
  opens : Str → Bool
  /-- the text of the local time -/
  clock : Str

/-- What becomes of the report. -/
inductive Res
  /-- nothing is done -/
  | quiet
  /-- "attempted and failed to create directory" or "failed to create directory" is logged -/
  | noDirectory (dir : Str)
  /-- "failed to create report file" is logged -/
  | noFile (path : Str)
  /-- the file has this text now; "report file written at" is logged -/
  | written (path text : Str)
  /-- `filesystem_error` leaves `checkForAddressCollisions`; the text of the file, if it was written -/
  | throws (file : Option (Str × Str))
deriving DecidableEq

/-- `lDirName`, NodeTreeBuilder.cpp:642-647. -/
def dirName (user : Option Str) : Str :=
  "/tmp".toList ++ (match user with | some u => "/".toList ++ u | none => []) ++ "/uhal".toList

/-- `lFilename` after `replace_all`, NodeTreeBuilder.cpp:673-674. -/
def flatten (path : Str) : Str := path.map fun c => if c = '/' then '-' else c

/-- `lReportPath`, NodeTreeBuilder.cpp:675. -/
def reportPath (user : Option Str) (path : Str) : Str :=
  dirName user ++ "/".toList ++ ("OverlapReport".toList ++ flatten path ++ ".txt".toList)

/-- The header, NodeTreeBuilder.cpp:677. -/
def headerText (path : Str) : Str := "Overlap report for \"".toList ++ path ++ "\".".toList

/-- `writeNodeOverlapReport`, utilities.cpp:197-228. -/
def write (fs : Fs) (n : Node) (l : List ((List Nat × NodeData) × (List Nat × NodeData))) (file header : Str) : Res :=
  match fs.isRegularFile file with
  | none => .throws none
  | some there =>
    if fs.opens file then
      let t := contents n l header fs.clock
      if there then .written file t
      else if fs.chmod file then .written file t
      else .throws (some (file, t))
    else .noFile file

/-- The directory is there in the end, NodeTreeBuilder.cpp:652-671. -/
def haveDir (fs : Fs) : Bool :=
  match fs.isDirectory (dirName fs.user) with
  | none => false
  | some true => true
  | some false =>
    match fs.createDirectories (dirName fs.user) with
    | some true => fs.chmod (dirName fs.user)
    | _ => false

/-- `checkForAddressCollisions`, NodeTreeBuilder.cpp:635-684. -/
def check (fs : Fs) (n : Node) (path : Str) : Res :=
  let l := n.overlaps
  if l = [] then .quiet
  else if haveDir fs then write fs n l (reportPath fs.user path) (headerText path)
  else .noDirectory (dirName fs.user)

end Verif.Overlap
