import Verif.Model.Xml
/-!
# What address-table numbers and rules mean, independently of the code

(The model is imported for the types `Str`, `W`, `Rule` only.)
-/

set_option autoImplicit false

namespace Verif

/-- The decimal digits and their values. -/
def decTable : List (Char × Nat) :=
  [('0', 0), ('1', 1), ('2', 2), ('3', 3), ('4', 4), ('5', 5), ('6', 6), ('7', 7), ('8', 8), ('9', 9)]

/-- The hexadecimal digits and their values. -/
def hexTable : List (Char × Nat) := decTable ++
  [('a', 10), ('b', 11), ('c', 12), ('d', 13), ('e', 14), ('f', 15),
   ('A', 10), ('B', 11), ('C', 12), ('D', 13), ('E', 14), ('F', 15)]

/-- `Numeral tbl base s v`: `s` is a non-empty string of digits with positional value `v`. -/
inductive Numeral (tbl : List (Char × Nat)) (base : Nat) : Str → Nat → Prop
  | one {ch : Char} {d : Nat} : (ch, d) ∈ tbl → Numeral tbl base [ch] d
  | snoc {s : Str} {n : Nat} {ch : Char} {d : Nat} : Numeral tbl base s n → (ch, d) ∈ tbl →
      Numeral tbl base (s ++ [ch]) (base * n + d)

/-- The prefixes that announce a hexadecimal number. -/
def hexPrefixes : List Str := [['0', 'x'], ['0', 'X'], ['x'], ['X']]

/-- `s` is written as a number with `n` digits and value `v` (of any size). -/
def NumWritten (s : Str) (n v : Nat) : Prop :=
  (Numeral decTable 10 s v ∧ n = s.length) ∨
  ∃ pre ds, pre ∈ hexPrefixes ∧ s = pre ++ ds ∧ Numeral hexTable 16 ds v ∧ n = ds.length

/-- A rule accepts an attribute list: all required names are there, no forbidden one is. -/
def Accepts (r : Rule) (names : List Str) : Prop :=
  (∀ x ∈ r.required, x ∈ names) ∧ (∀ x ∈ r.forbidden, x ∉ names)

/-- The names a rule mentions. -/
def Rule.names (r : Rule) : List Str := r.required ++ r.forbidden ++ r.optional

/-- The names of an attribute list contain the given attribute. -/
def Has (attrs : List (Str × Str)) (a : Attr) : Prop := a.name ∈ attrs.map (·.1)

/-- All attribute names are names of `Attr`. -/
def KnownAttrs (attrs : List (Str × Str)) : Prop := ∀ x ∈ attrs, ∃ a : Attr, x.1 = a.name

end Verif
