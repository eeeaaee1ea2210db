import Verif.Model.Xml
/-!
# What the descriptive attributes of an address table mean

`parameters`, `fwinfo`, `class`, `tags` and `description`, independently of the parsers (the model is imported for `Str`).
-/

set_option autoImplicit false

namespace Verif
namespace Spec

def Blank (c : Char) : Prop := c ∈ [' ', '\t', '\n', '\x0b', '\x0c', '\r']
def Letter (c : Char) : Prop := ('a' ≤ c ∧ c ≤ 'z') ∨ ('A' ≤ c ∧ c ≤ 'Z') ∨ c = '_'
def Digit (c : Char) : Prop := '0' ≤ c ∧ c ≤ '9'

instance (c : Char) : Decidable (Blank c) := inferInstanceAs (Decidable (c ∈ _))
instance (c : Char) : Decidable (Letter c) := inferInstanceAs (Decidable (_ ∨ _))
instance (c : Char) : Decidable (Digit c) := inferInstanceAs (Decidable (_ ∧ _))

/-- A name: letters, digits and underscores, and no digit at the beginning. -/
def Name (k : Str) : Prop := ∃ c s, k = c :: s ∧ Letter c ∧ ∀ x ∈ s, Letter x ∨ Digit x
/-- A value: letters, digits and underscores. -/
def Value (v : Str) : Prop := v ≠ [] ∧ ∀ x ∈ v, Letter x ∨ Digit x

/-! ## `parameters` -/

/-- One parameter: `name=value`, or `name` for the empty value. -/
inductive ParText : Str → Str × Str → Prop
  | bare {k : Str} : Name k → ParText k (k, [])
  | value {k v : Str} : Name k → Value v → ParText (k ++ '=' :: v) (k, v)

/-- Further parameters, each after `;` or `&`. -/
inductive ParsTail : Str → List (Str × Str) → Prop
  | nil : ParsTail [] []
  | cons {c : Char} {t s : Str} {p : Str × Str} {ps : List (Str × Str)} : c = ';' ∨ c = '&' → ParText t p → ParsTail s ps →
      ParsTail (c :: (t ++ s)) (p :: ps)

/-- A text of parameters. -/
inductive ParsText : Str → List (Str × Str) → Prop
  | nil : ParsText [] []
  | cons {t s : Str} {p : Str × Str} {ps : List (Str × Str)} : ParText t p → ParsTail s ps → ParsText (t ++ s) (p :: ps)

/-- What any text says: after white space, the longest beginning that is a text of parameters counts; the rest is ignored. -/
def ParsOf (s : Str) (ps : List (Str × Str)) : Prop :=
  ∃ b t r, s = b ++ (t ++ r) ∧ (∀ c ∈ b, Blank c) ∧ (∀ c, (t ++ r).head? = some c → ¬ Blank c) ∧ ParsText t ps ∧
    ∀ t' r' ps', t ++ r = t' ++ r' → ParsText t' ps' → t'.length ≤ t.length

/-! ## `fwinfo` -/

/-- Arguments `name=value`, separated by `;`. A missing name ends the list: whatever follows is ignored. -/
inductive FwArgs : Str → List (Str × Str) → Prop
  | nil : FwArgs [] []
  | stop {s : Str} : FwArgs ('=' :: s) []
  | last {k v : Str} : k ≠ [] → '=' ∉ k → ';' ∉ v → FwArgs (k ++ '=' :: v) [(k, v)]
  | more {k v s : Str} {ps : List (Str × Str)} : k ≠ [] → '=' ∉ k → ';' ∉ v → FwArgs s ps →
      FwArgs (k ++ '=' :: (v ++ ';' :: s)) ((k, v) :: ps)

/-- A text without white space: the type, and arguments after `;`. Without a type everything is ignored. -/
inductive FwText : Str → Str → List (Str × Str) → Prop
  | none {s : Str} : (s = [] ∨ s.head? = some ';') → FwText s [] []
  | type {w : Str} : w ≠ [] → ';' ∉ w → FwText w w []
  | args {w s : Str} {ps : List (Str × Str)} : w ≠ [] → ';' ∉ w → FwArgs s ps → FwText (w ++ ';' :: s) w ps

/-! ## Putting them together -/

/-- The first entry of every name, in order. -/
def firsts : List (Str × Str) → List (Str × Str)
  | [] => []
  | p :: l => p :: (firsts l).filter (fun q => q.1 ≠ p.1)

/-- The entries of `l`, and those of `k` whose names are new. -/
def merge (l k : List (Str × Str)) : List (Str × Str) := l ++ (firsts k).filter (fun q => q.1 ∉ l.map Prod.fst)

/-- `s`, or `old[s]`. -/
def joinText (old s : Str) : Str := if s = [] then old else if old = [] then s else old ++ ['['] ++ s ++ [']']

/-- The descriptive attributes of a node. -/
structure Info where
  cls : Str := []
  tags : Str := []
  desc : Str := []
  pars : List (Str × Str) := []
  fw : List (Str × Str) := []
deriving DecidableEq, Repr

/-- The parameters of an element (text `s`, empty if there is none) on top of `old`: the element's own come first. -/
def ParsAre (s : Str) (old new : List (Str × Str)) : Prop :=
  (s = [] ∧ new = old) ∨ (s ≠ [] ∧ ∃ ps, ParsOf s ps ∧ new = merge (firsts ps) old)

/-- The firmware information of an element (text `s`, empty if there is none) on top of `old`: the old entries come first. -/
def FwAre (s : Str) (old new : List (Str × Str)) : Prop :=
  (s = [] ∧ new = old) ∨
  (s ≠ [] ∧ ∃ ty args, FwText (s.filter (fun c => ¬ Blank c)) ty args ∧ new = merge old (("type".toList, ty) :: args))

end Spec
end Verif
