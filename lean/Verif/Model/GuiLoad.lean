/-!
The loader of the GUI: uhal/gui/pkg/uhal/gui/utilities/utilities.py:19-31 (`dynamic_loader`)
and uhal/gui/pkg/uhal/gui/guiloader.py:22-32, 55-71, 89-96.

A module is its name and its attributes with their names; of an attribute only matters
whether it is a class.  Simplified: creating a window succeeds, logging is left out.
-/

set_option autoImplicit false

namespace Verif.GuiLoad

/-- An attribute of a module. -/
structure Member where
  name : String
  isClass : Bool
deriving DecidableEq, Repr

structure Module where
  name : String
  members : List Member
deriving DecidableEq, Repr

/-- `inspect.getmembers`: sorted by name. -/
def getmembers (m : Module) : List Member :=
  m.members.mergeSort fun a b => decide (a.name ≤ b.name)

/-- `dynamic_loader`, utilities.py:26-31: the first class, or `None`. -/
def dynamicLoader (m : Module) : Option Member := (getmembers m).find? (·.isClass)

/-- The result of a Python function that may raise `TypeError`. -/
inductive Py (α : Type) where
  | ok (a : α)
  | typeError
deriving DecidableEq, Repr

/-- `OnInit`, guiloader.py:22-32: the windows, each with its class and its title.
`None[0]` raises `TypeError`. -/
def onInit : List Module → Py (List (Member × String))
  | [] => .ok []
  | g :: gs =>
    match dynamicLoader g with
    | none => .typeError
    | some c =>
      match onInit gs with
      | .ok ws => .ok ((c, g.name) :: ws)
      | .typeError => .typeError

/-- `test`, guiloader.py:89-96.  The status of a module with a class is OK. -/
def test : List Module → Py String
  | [] => .ok "OK"
  | g :: gs =>
    match dynamicLoader g with
    | none => .typeError
    | some _ => test gs

/-- A call of `loader`: `default`, the list if one is given, and whether the import of the
default GUI succeeds. -/
structure Call where
  default : Bool
  guilist : Option (List Module)
  imported : Bool

/-- `loader`, guiloader.py:55-71, with the module of the default GUI and the list that is
the default of the parameter (one object for all calls): the list of the new `GuiLoader`,
and the default list afterwards. -/
def loader (dflt : Module) (shared : List Module) (c : Call) : List Module × List Module :=
  let add := if c.default && c.imported then [dflt] else []
  match c.guilist with
  | some l => (l ++ add, shared)
  | none => (shared ++ add, shared ++ add)

/-- Calls one after the other. -/
def calls (dflt : Module) : List Module → List Call → List (List Module)
  | _, [] => []
  | shared, c :: cs =>
    let r := loader dflt shared c
    r.1 :: calls dflt r.2 cs

end Verif.GuiLoad
