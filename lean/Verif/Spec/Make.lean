import Verif.Model.Xml
/-!
# What the arguments of a URI say

Independent of the code: numerals, settings of which the last one counts.
-/

set_option autoImplicit false

namespace Verif.Spec

/-- The decimal digits of a number, in the usual order; leading zeros are allowed. -/
inductive Digits : Str → Nat → Prop
  | one (c : Char) (h : 48 ≤ c.toNat ∧ c.toNat ≤ 57) : Digits [c] (c.toNat - 48)
  | more (s : Str) (n : Nat) (c : Char) (h : 48 ≤ c.toNat ∧ c.toNat ≤ 57) (hs : Digits s n) : Digits (s ++ [c]) (10 * n + (c.toNat - 48))

/-- A number of 64 bits as a user may write it: digits, perhaps behind a plus sign. -/
def Numeral (s : Str) (n : Nat) : Prop := n < 2 ^ 64 ∧ (Digits s n ∨ ∃ r, s = '+' :: r ∧ Digits r n)

/-- The value of a hexadecimal digit. -/
def HexDigit (c : Char) (d : Nat) : Prop :=
  (48 ≤ c.toNat ∧ c.toNat ≤ 57 ∧ d = c.toNat - 48) ∨ (65 ≤ c.toNat ∧ c.toNat ≤ 70 ∧ d = c.toNat - 65 + 10) ∨
    (97 ≤ c.toNat ∧ c.toNat ≤ 102 ∧ d = c.toNat - 97 + 10)

/-- The hexadecimal digits of a number. -/
inductive HexDigits : Str → Nat → Prop
  | one (c : Char) (d : Nat) (h : HexDigit c d) : HexDigits [c] d
  | more (s : Str) (n : Nat) (c : Char) (d : Nat) (h : HexDigit c d) (hs : HexDigits s n) : HexDigits (s ++ [c]) (16 * n + d)

/-- An offset: a numeral, or hexadecimal digits behind `0x`. -/
def Offset (s : Str) (n : Nat) : Prop :=
  (n < 2 ^ 64 ∧ ∃ r, (s = '0' :: 'x' :: r ∨ s = '0' :: 'X' :: r) ∧ HexDigits r n) ∨ Numeral s n

/-- A setting: the last argument of this name counts; without one, `d`. -/
def Setting (k : Str) (R : Str → Nat → Prop) (d : Nat) (args : List (Str × Str)) (n : Nat) : Prop :=
  ((∀ x ∈ args, x.1 ≠ k) ∧ n = d) ∨ ∃ pre v post, args = pre ++ (k, v) :: post ∧ (∀ x ∈ post, x.1 ≠ k) ∧ R v n

/-- Every argument of this name has a value. -/
def Valued (k : Str) (R : Str → Nat → Prop) (args : List (Str × Str)) : Prop := ∀ x ∈ args, x.1 = k → ∃ n, R x.2 n

/-- At most one argument has this name, and this is its value. -/
def Once (k : Str) (args : List (Str × Str)) (v : Option Str) : Prop :=
  ((∀ x ∈ args, x.1 ≠ k) ∧ v = none) ∨
    ∃ pre t post, args = pre ++ (k, t) :: post ∧ (∀ x ∈ pre, x.1 ≠ k) ∧ (∀ x ∈ post, x.1 ≠ k) ∧ v = some t

/-- The first argument of this name. -/
def First (k : Str) (args : List (Str × Str)) (v : Str) : Prop := ∃ pre post, args = pre ++ (k, v) :: post ∧ ∀ x ∈ pre, x.1 ≠ k

end Verif.Spec
