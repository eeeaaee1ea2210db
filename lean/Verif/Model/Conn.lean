import Verif.Model.Xml
/-!
# Connection files and the connection manager

Models `ConnectionManager` (src/common/ConnectionManager.cpp) and `OpenFile` (src/common/utilities/files.cpp). Paths are
relative to `/repo/uhal/uhal`.

Simplifications (all of them):
* The file system, the shell expansion and HTTP are the functions of `World`; they do not change during the construction.
* A file is what `select_nodes("/connections/connection")` finds in it, in document order, with the values of the three
  attributes that the code looks at; `none` if pugixml does not accept the file. An empty file counts as one of those
  (`&aFile[0]` of an empty vector is formally undefined).
* Paths are the strings that `boost::filesystem::absolute` returns, which are not normalised.
* `std::map` is a list sorted by key; logging is left out.
* `NodeTreeBuilder::getNodeTree` and `ClientFactory::getClient` are arguments of `getDevice`; they are modelled in
  `Verif/Model/Builder.lean` and `Verif/Model/Uri.lean`.
* The mutex: `getDevice` changes nothing in the manager and the constructor is not shared, so calls are modelled one by one.
-/

set_option autoImplicit false

namespace Verif.Conn

/-- An element `connection` of a connection file: its attributes `id`, `uri`, `address_table`. -/
structure Entry where
  id : Option Str
  uri : Option Str
  table : Option Str
deriving DecidableEq, Repr

/-- `ConnectionDescriptor`, include/uhal/ConnectionManager.hpp:82-107. -/
structure Desc where
  id : Str
  uri : Str
  table : Str
  file : Str
deriving DecidableEq, Repr

/-- What the callback is called with (protocol, path, parsed content). -/
structure File where
  proto : Str
  path : Str
  body : Option (List Entry)
deriving DecidableEq, Repr

/-- Exceptions leaving the constructor or `getDevice`. -/
inductive Exc
  | duplicatedUID | fileNotFound | expandFailed | cannotOpen | nonSupportedProtocol | noSuchId
deriving DecidableEq, Repr

/-- File system, shell and network. `expand` is `none` if the expansion throws. -/
structure World where
  expand : Str → Option (List Str)
  read : Str → Option (Option (List Entry))
  http : Str → Option (Option (List Entry))

/-- One step of the constructor: a file is handed to the callback, or an exception. -/
inductive Ev
  | file (f : File)
  | fail (e : Exc)
deriving DecidableEq, Repr

/-- `OpenFile`, src/common/utilities/files.cpp:324-341, with `OpenFileLocal` 279-305, `ShellExpandFilenameExpr` 87-134 (the
result of `wordexp` is not checked there; a failing expansion is undefined behaviour and not modelled) and `OpenFileHttp` 308-321. -/
def openFile (w : World) (x : Str × Str) : List Ev :=
  if x.1 = "file".toList then
    match w.expand x.2 with
    | none => [.fail .expandFailed]
    | some [] => [.fail .fileNotFound]
    | some ps => ps.map fun p => match w.read p with
      | none => .fail .cannotOpen
      | some b => .file ⟨"file".toList, p, b⟩
  else if x.1 = "http".toList then
    match w.http x.2 with
    | none => [.fail .cannotOpen]
    | some b => [.file ⟨"http".toList, x.2, b⟩]
  else [.fail .nonSupportedProtocol]

/-- `mConnectionDescriptors` and `mPreviouslyOpenedFiles`. -/
structure Mgr where
  descs : List Desc
  opened : List Str
deriving DecidableEq, Repr

/-- `mConnectionDescriptors.find`. -/
def Mgr.find (m : Mgr) (i : Str) : Option Desc := m.descs.find? fun d => decide (d.id = i)

/-- `std::map::insert` of a key that is not there. -/
def put (d : Desc) : List Desc → List Desc
  | [] => [d]
  | x :: xs => if d.id < x.id then d :: x :: xs else x :: put d xs

/-- The body of the loop over the elements, src/common/ConnectionManager.cpp:251-283, with the constructor of the descriptor
59-80 and `operator==` 83-101 (which does not compare the connection file). -/
def Mgr.entry (m : Mgr) (f : File) (e : Entry) : Except Exc Mgr :=
  match e.id, e.uri, e.table with
  | some i, some u, some t => match m.find i with
    | none => .ok { m with descs := put ⟨i, u, t, f.path⟩ m.descs }
    | some d => if d.uri = u ∧ d.table = t then .ok m else .error .duplicatedUID
  | _, _, _ => .ok m

/-- The loop, src/common/ConnectionManager.cpp:251-283. -/
def Mgr.entries (m : Mgr) (f : File) : List Entry → Except Exc Mgr
  | [] => .ok m
  | e :: es => match m.entry f e with
    | .ok m' => m'.entries f es
    | .error x => .error x

/-- `CallBack`, src/common/ConnectionManager.cpp:229-284. -/
def Mgr.callback (m : Mgr) (f : File) : Except Exc Mgr :=
  if f.proto ++ f.path ∈ m.opened then .ok m
  else match f.body with
    | none => .ok { m with opened := (f.proto ++ f.path) :: m.opened }
    | some es => Mgr.entries { m with opened := (f.proto ++ f.path) :: m.opened } f es

/-- The steps of the constructor one after the other. -/
def Mgr.steps (m : Mgr) : List Ev → Except Exc Mgr
  | [] => .ok m
  | .fail e :: _ => .error e
  | .file f :: evs => match m.callback f with
    | .ok m' => m'.steps evs
    | .error x => .error x

/-- The constructors, src/common/ConnectionManager.cpp:106-128, from the parsed list of file expressions. -/
def construct (w : World) (files : List (Str × Str)) : Except Exc Mgr :=
  Mgr.steps ⟨[], []⟩ (files.flatMap (openFile w))

/-- `getDevice(id)`, src/common/ConnectionManager.cpp:136-162: the node tree is built from the address table of the descriptor
and the connection file it comes from, the client from the id and the uri. -/
def Mgr.getDevice {T C : Type} (m : Mgr) (tree : Str → Str → Except Exc T) (client : Str → Str → Except Exc C) (i : Str) :
    Except Exc (C × T) :=
  match m.find i with
  | none => .error .noSuchId
  | some d => match tree d.table d.file with
    | .error x => .error x
    | .ok t => match client d.id d.uri with
      | .error x => .error x
      | .ok c => .ok (c, t)

/-- `getDevices()`, src/common/ConnectionManager.cpp:187-198. -/
def Mgr.getDevices (m : Mgr) : List Str := m.descs.map (·.id)

/-- `getDevices(regex)`, src/common/ConnectionManager.cpp:201-217; `rx` is `boost::regex_match` with the given expression. -/
def Mgr.getDevicesMatching (m : Mgr) (rx : Str → Bool) : List Str := m.getDevices.filter rx

end Verif.Conn
