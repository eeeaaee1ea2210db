import Verif.Spec.Make
/-!
# What a reader expects of printed texts

Independent of the code: numerals behind words, words of a packet, hexadecimal lines.
-/

set_option autoImplicit false

namespace Verif.Spec.HubText

/-- Behind the words `before` the text has the number `n`, all of its digits. -/
def Shows (t before : List Char) (n : Nat) : Prop :=
  ∃ x s y, t = x ++ before ++ s ++ y ∧ Digits s n ∧ ∀ c ∈ y.head?, ¬ (48 ≤ c.toNat ∧ c.toNat ≤ 57)

/-- Word `i` of a packet in network order. -/
def WordAt (b : List UInt8) (i w : Nat) : Prop :=
  ∃ b0 b1 b2 b3, b[4 * i]? = some b0 ∧ b[4 * i + 1]? = some b1 ∧ b[4 * i + 2]? = some b2 ∧ b[4 * i + 3]? = some b3 ∧
    w = ((b0.toNat * 256 + b1.toNat) * 256 + b2.toNat) * 256 + b3.toNat

/-- A line with a number of 32 bits in eight hexadecimal digits, behind `before`. -/
def HexLine (before : List Char) (w : Nat) (line : List Char) : Prop :=
  ∃ h rest, line = before ++ h ++ rest ++ ['\n'] ∧ h.length = 8 ∧ HexDigits h w ∧ '\n' ∉ rest

end Verif.Spec.HubText
