import Verif.Model.Header
/-! Independent description of the IPbus header words: positions of the fields in the 32-bit word and
the tables of transaction type codes, as in the IPbus 1.3 / 2.0 protocol documents. Written with
arithmetic on the value of the word only; uses nothing of the model but the names `Ver`, `Ty`. -/

set_option autoImplicit false

namespace Verif.Spec

/-- The value of the `k`-bit field starting at bit `s` of `h`. -/
def field (h : W) (s k : Nat) : Nat := h.toNat / 2 ^ s % 2 ^ k

/-- Protocol version nibble. -/
def verNibble : Ver → Nat
  | .v1 => 1
  | .v2 => 2

/-- Width of the word-count field. -/
def wcBits : Ver → Nat
  | .v1 => 9
  | .v2 => 8

/-- Width of the transaction-id field. -/
def idBits : Ver → Nat
  | .v1 => 11
  | .v2 => 12

/-- Lowest bit of the type field (it extends up to bit 7). -/
def tyLow : Ver → Nat
  | .v1 => 3
  | .v2 => 4

/-- Type codes on the wire. -/
def wireCode : Ver → Ty → Option Nat
  | .v1, .bot => some 0x1F
  | .v1, .rai => some 0x1E
  | .v1, .read => some 0x03
  | .v1, .write => some 0x04
  | .v1, .rmwBits => some 0x05
  | .v1, .rmwSum => some 0x06
  | .v1, .niRead => some 0x08
  | .v1, .niWrite => some 0x09
  | .v1, .configRead => none
  | .v2, .bot => none
  | .v2, .rai => none
  | .v2, .read => some 0
  | .v2, .write => some 1
  | .v2, .niRead => some 2
  | .v2, .niWrite => some 3
  | .v2, .rmwBits => some 4
  | .v2, .rmwSum => some 5
  | .v2, .configRead => some 6

/-- The transaction types a protocol version supports. -/
def supported : Ver → Ty → Prop
  | .v1, ty => ty ≠ .configRead
  | .v2, ty => ty ≠ .bot ∧ ty ≠ .rai

/-- Width of the info field the decoder looks at: v1 reads two bits only (0x3), although the encoder
writes three (0x7). -/
def infoBits : Ver → Nat
  | .v1 => 2
  | .v2 => 4

end Verif.Spec
