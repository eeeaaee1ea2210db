import Verif.Model.Node
import Verif.Model.NodeAttr
/-!
# From address files to node trees

Models `NodeTreeBuilder` (src/common/NodeTreeBuilder.cpp). Paths are relative to `/repo/uhal/uhal`.

Simplifications (all of them; see also `Verif/Model/Node.lean`):
* An address file is the tree of its elements called `node` (`Xml`), each with its attributes in document order;
  `env.file` gives it, `none` if the callback ignores the file (extension other than `.xml`, not well-formed, no `node`
  element). Files do not change while they are being read.
* `env.open_ expr cur` stands for `ParseSemicolonDelimitedUriList` and `OpenFile` (src/common/utilities/files.cpp): `none` if
  they throw or the expression does not contain exactly one file expression, otherwise the files (protocol, path) that the
  callback is called with.
* `env.known` are the classes registered with `DerivedNodeFactory`; `env.sort` is `std::sort` with `compareNodeAddr`.
* `mFileCallStack.back()` is the argument `cur`; the entries that an exception leaves on the stack are not looked at again,
  since `build` pushes before anything reads the top.
* Reporting overlaps (`checkForAddressCollisions`) has no effect on the tree; it is `Node.overlaps`.
* Recursion through files is bounded by `fuel`; running out of it is the outcome `loops` (the code recurses until the stack
  is exhausted if files include each other in a circle, because a file enters the cache after it has been built).
-/

set_option autoImplicit false

namespace Verif

/-- An element called `node`: attributes and children. -/
inductive Xml
  | el (attrs : List (Str × Str)) (kids : List Xml)

/-- The exceptions thrown while building a tree. -/
inductive BuildExc
  | fileCount | parser (s : Sel) | missingId | badId | badValue | tooBig | noSize | arrayBound | maskedChild | blockChild | fwinfo
deriving DecidableEq, Repr

/-- The world outside the builder. -/
structure BuildEnv where
  open_ : Str → Str → Option (List (Str × Str))
  file : Str → Str → Option Xml
  known : Str → Bool
  sort : List Node → List Node

/-- `aXmlNode.attribute(name)`: the first attribute of that name. -/
def attr? (attrs : List (Str × Str)) (a : Attr) : Option Str := (attrs.find? fun p => decide (p.1 = a.name)).map (·.2)

/-- `GetXMLattribute<false>` for `uint32_t`, src/common/utilities/xml.cpp:216-283: `none` if the attribute is missing. -/
def getU32 (attrs : List (Str × Str)) (a : Attr) : Except BuildExc (Option W) :=
  match attr? attrs a with
  | none => .ok none
  | some s => match parseU32 s with
    | .ok v => .ok (some v)
    | .incorrect => .error .badValue
    | .tooBig => .error .tooBig

/-- `setUid`, src/common/NodeTreeBuilder.cpp:337-356. -/
def setUid (requireId : Bool) (attrs : List (Str × Str)) (d : NodeData) : Except BuildExc NodeData :=
  match attr? attrs .id with
  | none => if requireId then .error .missingId else .ok d
  | some s =>
    if s = [] then .error .badId
    else if '.' ∈ s then .error .badId
    else if s.head? = some ' ' ∨ s.getLast? = some ' ' then .error .badId
    else .ok { d with uid := s }

/-- `setAddr`, src/common/NodeTreeBuilder.cpp:358-364. -/
def setAddr (attrs : List (Str × Str)) (d : NodeData) : Except BuildExc NodeData := do
  let a ← getU32 attrs .address
  return { d with part := d.part ||| a.getD 0#32 }

/-- `setClassName`, src/common/NodeTreeBuilder.cpp:367-374. -/
def setClassName (attrs : List (Str × Str)) (d : NodeData) : NodeData := { d with cls := (attr? attrs .class_).getD [] }

/-- `setPars`, src/common/NodeTreeBuilder.cpp:376-395. -/
def setPars (attrs : List (Str × Str)) (d : NodeData) : NodeData :=
  let s := (attr? attrs .parameters).getD []
  if s ≠ [] then { d with pars := d.pars.foldl mapInsert (parsMap s) } else d

/-- `setFirmwareInfo`, src/common/NodeTreeBuilder.cpp:508-528. The exception is `boost::spirit::qi::expectation_failure`. -/
def setFirmwareInfo (attrs : List (Str × Str)) (d : NodeData) : Except BuildExc NodeData :=
  let s := (attr? attrs .fwinfo).getD []
  if s ≠ [] then
    match parseFw s with
    | none => .error .fwinfo
    | some (type, args) => .ok { d with fw := args.foldl mapInsert (mapInsert d.fw ("type".toList, type)) }
  else .ok d

/-- `mTags += "[" ...`, src/common/NodeTreeBuilder.cpp:397-432. -/
def addText (old s : Str) : Str :=
  if s ≠ [] ∧ old ≠ [] then old ++ '[' :: s ++ [']'] else if s ≠ [] ∧ old = [] then s else old

/-- `setTags`, src/common/NodeTreeBuilder.cpp:397-413. -/
def setTags (attrs : List (Str × Str)) (d : NodeData) : NodeData := { d with tags := addText d.tags ((attr? attrs .tags).getD []) }

/-- `setDescription`, src/common/NodeTreeBuilder.cpp:416-432. -/
def setDescription (attrs : List (Str × Str)) (d : NodeData) : NodeData :=
  { d with desc := addText d.desc ((attr? attrs .description).getD []) }

/-- `setModule`, src/common/NodeTreeBuilder.cpp:434-440. -/
def setModule (cur : Str) (d : NodeData) : NodeData := { d with module := cur }

/-- `mPermissionsLut`, src/common/NodeTreeBuilder.cpp:690-703. -/
def permissionsLut : List (Str × Permission) :=
  [(['r'], .read), (['w'], .write), (['r', 'e', 'a', 'd'], .read), (['w', 'r', 'i', 't', 'e'], .write), (['r', 'w'], .readWrite),
   (['w', 'r'], .readWrite), (['r', 'e', 'a', 'd', 'w', 'r', 'i', 't', 'e'], .readWrite),
   (['w', 'r', 'i', 't', 'e', 'r', 'e', 'a', 'd'], .readWrite)]

/-- `mModeLut`, src/common/NodeTreeBuilder.cpp:708-720. -/
def modeLut : List (Str × Mode) :=
  [(['s', 'i', 'n', 'g', 'l', 'e'], .single), (['b', 'l', 'o', 'c', 'k'], .incremental), (['p', 'o', 'r', 't'], .nonIncremental),
   (['i', 'n', 'c', 'r', 'e', 'm', 'e', 'n', 't', 'a', 'l'], .incremental),
   (['n', 'o', 'n', '-', 'i', 'n', 'c', 'r', 'e', 'm', 'e', 'n', 't', 'a', 'l'], .nonIncremental),
   (['i', 'n', 'c'], .incremental), (['n', 'o', 'n', '-', 'i', 'n', 'c'], .nonIncremental)]

/-- `setPermissions`, src/common/NodeTreeBuilder.cpp:442-457. -/
def setPermissions (attrs : List (Str × Str)) (d : NodeData) : Except BuildExc NodeData :=
  match attr? attrs .permission with
  | none => .ok d
  | some s => match permissionsLut.lookup s with
    | none => .error .badValue
    | some p => .ok { d with perm := p }

/-- `setMask`, src/common/NodeTreeBuilder.cpp:460-464. -/
def setMask (attrs : List (Str × Str)) (d : NodeData) : Except BuildExc NodeData := do
  let m ← getU32 attrs .mask
  return { d with mask := m.getD d.mask }

/-- `setModeAndSize`, src/common/NodeTreeBuilder.cpp:467-506. -/
def setModeAndSize (attrs : List (Str × Str)) (d : NodeData) : Except BuildExc NodeData :=
  match attr? attrs .mode with
  | none => .ok d
  | some s => match modeLut.lookup s with
    | none => .error .badValue
    | some m =>
      if m = .incremental then do
        match ← getU32 attrs .size with
        | none => .error .noSize
        | some z => .ok { d with mode := m, size := z }
      else if m = .nonIncremental then do
        let z ← getU32 attrs .size
        return { d with mode := m, size := z.getD d.size }
      else .ok { d with mode := m }

/-- The attributes of a plain node, src/common/NodeTreeBuilder.cpp:253-263. -/
def plainData (requireId : Bool) (attrs : List (Str × Str)) (cur : Str) : Except BuildExc NodeData := do
  let d ← setUid requireId attrs {}
  let d ← setAddr attrs d
  let d ← setFirmwareInfo attrs (setPars attrs d)
  let d := setModule cur (setDescription attrs (setTags attrs (setClassName attrs d)))
  let d ← setPermissions attrs d
  setModeAndSize attrs d

/-- The attributes that a module node adds, src/common/NodeTreeBuilder.cpp:282-289. -/
def moduleData (requireId : Bool) (attrs : List (Str × Str)) (cur : Str) (d : NodeData) :
    Except BuildExc NodeData := do
  let d ← setUid requireId attrs d
  let d ← setAddr attrs d
  let d ← setFirmwareInfo attrs (setPars attrs (setClassName attrs d))
  return setModule cur (setDescription attrs (setTags attrs d))

/-- The attributes of a bit-field, src/common/NodeTreeBuilder.cpp:317-327. -/
def maskData (requireId : Bool) (attrs : List (Str × Str)) (cur : Str) : Except BuildExc NodeData := do
  let d ← setUid requireId attrs {}
  let d ← setAddr attrs d
  let d ← setFirmwareInfo attrs (setPars attrs (setClassName attrs d))
  let d := setModule cur (setDescription attrs (setTags attrs d))
  let d ← setPermissions attrs d
  setMask attrs d

/-- `mNodes`: the cache of address files. -/
abbrev NodeCache := List (Str × Node)

/-- Outcome of building: a value or an exception with the new cache, or no end. -/
inductive BOut (α : Type)
  | ok (a : α) (c : NodeCache)
  | exc (e : BuildExc) (c : NodeCache)
  | loops

/-- Computations on the cache. -/
abbrev Bld (α : Type) := NodeCache → BOut α

def Bld.bind {α β : Type} (x : Bld α) (f : α → Bld β) : Bld β := fun c =>
  match x c with
  | .ok a c' => f a c'
  | .exc e c' => .exc e c'
  | .loops => .loops

def Bld.lift {α : Type} (x : Except BuildExc α) : Bld α := fun c =>
  match x with
  | .ok a => .ok a c
  | .error e => .exc e c

/-- `convertToClassType` if there is a class, src/common/NodeTreeBuilder.cpp:266-273, 296-303, and
src/common/DerivedNodeFactory.cpp:73-103: if the class is known, a new object of this class, which is a copy of the node. -/
def withClass (env : BuildEnv) (n : Node) : Node :=
  if n.d.cls ≠ [] ∧ env.known n.d.cls = true then .mk { n.clone.d with ty := n.d.cls } n.clone.kids else n

/-- `mChildrenMap.insert` in the order of the document, src/common/NodeTreeBuilder.cpp:547-551. -/
def ranked : List Node → Nat → List Node
  | [], _ => []
  | k :: ks, i => .mk { k.d with rank := i } k.kids :: ranked ks (i + 1)

/-- The outcome of `mTopLevelNodeParser` or `mNodeParser` for an element. (`noRulesPassed` stands for the failure of the
constructor of `NodeTreeBuilder`, which does not happen: `C37_builder_parsers`.) -/
def kindOf (top : Bool) (attrs : List (Str × Str)) : Sel :=
  match (if top then topParser else nodeParser) with
  | none => .noRulesPassed
  | some p => p.select attrs

mutual
/-- `mTopLevelNodeParser` / `mNodeParser` on an element: `plainNodeCreator`, `bitmaskNodeCreator`, `moduleNodeCreator`
(src/common/NodeTreeBuilder.cpp:251-332) with `addChildren` (531-554). `inc` is `getNodeTree`. The children of a module element
are not looked at. -/
def Xml.create (env : BuildEnv) (inc : Str → Str → Bld Node) (top : Bool) (cur : Str) : Xml → Bld Node
  | .el attrs kids =>
    match kindOf top attrs with
    | .rule 0 =>
      Bld.bind (Bld.lift (plainData (!top) attrs cur)) fun d =>
        if d.mode = .nonIncremental then
          if kids.isEmpty then fun c => .ok (withClass env (.mk d [])) c else fun c => .exc .blockChild c
        else Bld.bind (createKids env inc cur kids) fun ks => fun c => .ok (withClass env (.mk d (ranked ks 0))) c
    | .rule 1 =>
      if kids.isEmpty then Bld.bind (Bld.lift (maskData (!top) attrs cur)) fun d => fun c => .ok (.mk d []) c
      else fun c => .exc .maskedChild c
    | .rule 2 =>
      Bld.bind (inc ((attr? attrs .module_).getD []) cur) fun n =>
        Bld.bind (Bld.lift (moduleData (!top) attrs cur n.d)) fun d => fun c => .ok (withClass env (.mk d n.kids)) c
    | s => fun c => .exc (.parser s) c
def Xml.createKids (env : BuildEnv) (inc : Str → Str → Bld Node) (cur : Str) : List Xml → Bld (List Node)
  | [] => fun c => .ok [] c
  | x :: xs => Bld.bind (Xml.create env inc false cur x) fun n => Bld.bind (Xml.createKids env inc cur xs) fun ns => fun c => .ok (n :: ns) c
end

/-- The mode after `calculateHierarchicalAddresses`, src/common/NodeTreeBuilder.cpp:558-592. -/
def settledMode (m : Mode) (kids : List Node) : Mode :=
  if m = .hierarchical then
    if kids = [] then .single
    else if kids.all (fun k => decide (k.d.mask ≠ 0xFFFFFFFF#32)) then .single
    else m
  else m

mutual
/-- `calculateHierarchicalAddresses`, src/common/NodeTreeBuilder.cpp:556-632. -/
def Node.calc (env : BuildEnv) : Node → W → Except BuildExc Node
  | .mk d kids, base =>
    if settledMode d.mode kids = .incremental ∧ (d.part.toNat + (d.size - 1#32).toNat) >>> 32 ≠ 0 then .error .arrayBound
    else
      match Node.calcKids env kids (d.part + base) with
      | .ok ks => .ok (.mk { d with mode := settledMode d.mode kids, addr := d.part + base } (env.sort ks))
      | .error e => .error e
def Node.calcKids (env : BuildEnv) : List Node → W → Except BuildExc (List Node)
  | [], _ => .ok []
  | k :: ks, base =>
    match Node.calc env k base with
    | .ok n =>
      match Node.calcKids env ks base with
      | .ok ns => .ok (n :: ns)
      | .error e => .error e
    | .error e => .error e
end

/-- `build`, src/common/NodeTreeBuilder.cpp:186-195. -/
def buildFile (env : BuildEnv) (inc : Str → Str → Bld Node) (path : Str) (x : Xml) : Bld Node :=
  Bld.bind (x.create env inc true path) fun n => Bld.lift (n.calc env 0#32)

/-- The callback on the files of an expression, src/common/NodeTreeBuilder.cpp:198-248, one after the other. With
`useCache = false` the cache is neither consulted nor filled (not in the code; for comparison). -/
def loadFiles (env : BuildEnv) (useCache : Bool) (inc : Str → Str → Bld Node) : List (Str × Str) → Bld (List Node)
  | [] => fun c => .ok [] c
  | (proto, path) :: fs =>
    Bld.bind (fun c =>
      match (if useCache then c.lookup (proto ++ path) else none) with
      | some n => .ok [n] c
      | none =>
        match env.file proto path with
        | none => .ok [] c
        | some x =>
          match buildFile env inc path x c with
          | .ok n c' => .ok [n] (if useCache then c' ++ [(proto ++ path, n)] else c')
          | .exc e c' => .exc e c'
          | .loops => .loops) fun ns =>
    Bld.bind (loadFiles env useCache inc fs) fun ms => fun c => .ok (ns ++ ms) c

/-- `getNodeTree`, src/common/NodeTreeBuilder.cpp:151-175. -/
def getNodeTree (env : BuildEnv) (useCache : Bool) : Nat → Str → Str → Bld Node
  | 0, _, _ => fun _ => .loops
  | fuel + 1, expr, cur =>
    match env.open_ expr cur with
    | none => fun c => .exc .fileCount c
    | some fs =>
      Bld.bind (loadFiles env useCache (getNodeTree env useCache fuel) fs) fun ns =>
        match ns with
        | [n] => fun c => .ok n.clone c
        | _ => fun c => .exc .fileCount c

end Verif
