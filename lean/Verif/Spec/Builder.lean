import Verif.Spec.Xml
import Verif.Spec.NodeAttr
import Verif.Model.Builder
/-!
# What an address table declares

The tree declared by address files, with included files written inline, and the table of its nodes: path of ids, absolute
address (the sum of the addresses along the path), mode, mask, permission, size, descriptive attributes. Independent of the builder (the model is
imported for the types, for `attr?`, and for the outside world `BuildEnv`).
-/

set_option autoImplicit false

namespace Verif

namespace Spec

/-- A declared node. -/
inductive Decl
  | mk (uid : Str) (part mask : W) (perm : Permission) (mode : Mode) (size : W) (info : Info) (kids : List Decl)

def Decl.uid : Decl → Str | .mk u _ _ _ _ _ _ _ => u
def Decl.part : Decl → W | .mk _ p _ _ _ _ _ _ => p
def Decl.mask : Decl → W | .mk _ _ m _ _ _ _ _ => m
def Decl.perm : Decl → Permission | .mk _ _ _ p _ _ _ _ => p
def Decl.mode : Decl → Mode | .mk _ _ _ _ m _ _ _ => m
def Decl.size : Decl → W | .mk _ _ _ _ _ z _ _ => z
def Decl.info : Decl → Info | .mk _ _ _ _ _ _ i _ => i
def Decl.kids : Decl → List Decl | .mk _ _ _ _ _ _ _ k => k

/-- One line of the table. -/
structure Row where
  path : List Str
  addr : W
  mode : Mode
  mask : W
  perm : Permission
  size : W
  info : Info
deriving DecidableEq, Repr

/-- A node without explicit mode is a register if it has no children or only bit-fields as children. -/
def finalMode (m : Mode) (masks : List W) : Mode :=
  if m = .hierarchical ∧ ∀ x ∈ masks, x ≠ 0xFFFFFFFF#32 then .single else m

/-- Put an id in front of the path. -/
def Row.under (uid : Str) (r : Row) : Row := { r with path := uid :: r.path }

mutual
/-- The lines of a declared node and everything below it; `base` is the sum of the addresses above. -/
def Decl.rows (base : W) : Decl → List Row
  | .mk uid part mask perm mode size info kids =>
    ⟨[uid], base + part, finalMode mode (kids.map Decl.mask), mask, perm, size, info⟩ :: (Decl.rowsL (base + part) kids).map (Row.under uid)
def Decl.rowsL (base : W) : List Decl → List Row
  | [] => []
  | k :: ks => Decl.rows base k ++ Decl.rowsL base ks
end

/-- A number attribute, with a value for when it is missing. -/
def NumIs (o : Option Str) (dflt v : W) : Prop :=
  match o with
  | none => v = dflt
  | some s => ∃ n, NumWritten s n v.toNat ∧ n ≤ 10

/-- Ids are not empty, contain no dot, and neither begin nor end with a space. -/
def IdOK (s : Str) : Prop := s ≠ [] ∧ '.' ∉ s ∧ s.head? ≠ some ' ' ∧ s.getLast? ≠ some ' '

/-- The id attribute; without it (allowed for the outermost node of a file) the id is `dflt`. -/
def IdIs (top : Bool) (o : Option Str) (dflt uid : Str) : Prop :=
  match o with
  | none => top = true ∧ uid = dflt
  | some s => uid = s ∧ IdOK s

/-- The words for permissions. -/
def permWords : List (String × Permission) :=
  [("r", .read), ("read", .read), ("w", .write), ("write", .write), ("rw", .readWrite), ("wr", .readWrite),
    ("readwrite", .readWrite), ("writeread", .readWrite)]

def PermIs (o : Option Str) (p : Permission) : Prop :=
  match o with
  | none => p = .readWrite
  | some s => (s, p) ∈ permWords.map fun x => (x.1.toList, x.2)

/-- The words for modes. -/
def modeWords : List (String × Mode) :=
  [("single", .single), ("block", .incremental), ("incremental", .incremental), ("inc", .incremental), ("port", .nonIncremental),
    ("non-incremental", .nonIncremental), ("non-inc", .nonIncremental)]

def ModeIs (o : Option Str) (m : Mode) : Prop :=
  match o with
  | none => m = .hierarchical
  | some s => (s, m) ∈ modeWords.map fun x => (x.1.toList, x.2)

/-- Incremental nodes have a size, ports can have one, for the others it does not count. -/
def SizeIs (m : Mode) (o : Option Str) (z : W) : Prop :=
  match m with
  | .incremental => o ≠ none ∧ NumIs o 1#32 z
  | .nonIncremental => NumIs o 1#32 z
  | _ => z = 1#32

/-- The block begins and ends below 2^32, counted from the address of the parent. -/
def BlockOK (m : Mode) (part size : W) : Prop := m = .incremental → part.toNat + (size - 1#32).toNat < 2 ^ 32

mutual
/-- Every block of the tree. -/
def Decl.BlocksOK : Decl → Prop
  | .mk _ part _ _ mode size _ kids => BlockOK mode part size ∧ Decl.BlocksOKL kids
def Decl.BlocksOKL : List Decl → Prop
  | [] => True
  | k :: ks => k.BlocksOK ∧ Decl.BlocksOKL ks
end

/-- The descriptive attributes of an element, on top of those of an included file (`old`): the class is the element's own; tags and
descriptions are put together; the element's own parameters come first; the included file's firmware information comes first. -/
structure InfoIs (attrs : List (Str × Str)) (old new : Info) : Prop where
  cls : new.cls = (attr? attrs .class_).getD []
  tags : new.tags = joinText old.tags ((attr? attrs .tags).getD [])
  desc : new.desc = joinText old.desc ((attr? attrs .description).getD [])
  pars : ParsAre ((attr? attrs .parameters).getD []) old.pars new.pars
  fw : FwAre ((attr? attrs .fwinfo).getD []) old.fw new.fw

mutual
/-- An element declares a tree. `inc`: what a file expression, seen from the file `cur`, declares. `J`: how the address of
an including element and that of the outermost node of the included file are combined: `J root offset result`. -/
def Declares (J : W → W → W → Prop) (inc : Str → Str → Decl → Prop) (top : Bool) (cur : Str) : Xml → Decl → Prop
  | .el attrs kids, .mk uid part mask perm mode size info ks =>
    KnownAttrs attrs ∧
    ((-- a plain node
      ¬ Has attrs .mask ∧ ¬ Has attrs .module_ ∧ IdIs top (attr? attrs .id) [] uid ∧ NumIs (attr? attrs .address) 0#32 part ∧
      mask = 0xFFFFFFFF#32 ∧ PermIs (attr? attrs .permission) perm ∧ ModeIs (attr? attrs .mode) mode ∧
      SizeIs mode (attr? attrs .size) size ∧ InfoIs attrs {} info ∧ (mode = .nonIncremental → kids = []) ∧ DeclaresL J inc cur kids ks) ∨
     (-- a bit-field
      Has attrs .mask ∧ ¬ Has attrs .module_ ∧ ¬ Has attrs .class_ ∧ ¬ Has attrs .mode ∧ ¬ Has attrs .size ∧
      IdIs top (attr? attrs .id) [] uid ∧ NumIs (attr? attrs .address) 0#32 part ∧
      NumIs (attr? attrs .mask) 0xFFFFFFFF#32 mask ∧ PermIs (attr? attrs .permission) perm ∧ mode = .hierarchical ∧ size = 1#32 ∧
      InfoIs attrs {} info ∧ kids = [] ∧ ks = []) ∨
     (-- an included file
      Has attrs .module_ ∧ ¬ Has attrs .mask ∧ ¬ Has attrs .mode ∧ ¬ Has attrs .size ∧ ¬ Has attrs .permission ∧
      ∃ m ruid rpart off rinfo, attr? attrs .module_ = some m ∧ inc m cur (.mk ruid rpart mask perm mode size rinfo ks) ∧
        IdIs top (attr? attrs .id) ruid uid ∧ NumIs (attr? attrs .address) 0#32 off ∧ J rpart off part ∧ InfoIs attrs rinfo info))
def DeclaresL (J : W → W → W → Prop) (inc : Str → Str → Decl → Prop) (cur : Str) : List Xml → List Decl → Prop
  | [], [] => True
  | x :: xs, k :: ks => Declares J inc false cur x k ∧ DeclaresL J inc cur xs ks
  | _, _ => False
end

/-- What a file expression declares, with at most `depth` files nested: exactly one of the files it refers to is usable. -/
def FileDeclares (env : BuildEnv) (J : W → W → W → Prop) : Nat → Str → Str → Decl → Prop
  | 0, _, _, _ => False
  | depth + 1, expr, cur, t => ∃ fs proto path x, env.open_ expr cur = some fs ∧
      fs.filter (fun f => (env.file f.1 f.2).isSome) = [(proto, path)] ∧ env.file proto path = some x ∧
      Declares J (FileDeclares env J depth) true path x t ∧ t.BlocksOK

/-- The claim: addresses are added. -/
def sumJ (r o p : W) : Prop := p = r + o
/-- The code: addresses are combined with bitwise or. -/
def orJ (r o p : W) : Prop := p = r ||| o
/-- The case in which there is no difference. -/
def disjJ (r o p : W) : Prop := p = r + o ∧ r &&& o = 0#32

/-- What a file expression declares. -/
def Declared (env : BuildEnv) (J : W → W → W → Prop) (expr cur : Str) (t : Decl) : Prop := ∃ depth, FileDeclares env J depth expr cur t

end Spec
end Verif
