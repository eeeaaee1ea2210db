import Verif.Model.Xml
/-!
# What a web server answers

The shape of a response as RFC 2616 (section 6) has it: status line, header lines, an empty line, the body. Nothing here refers
to the model of uHAL's parser.
-/

set_option autoImplicit false

namespace Verif.Files

/-- Carriage return and line feed. -/
def crlf : Str := ['\r', '\n']

/-- A response: digits of the version, status code, reason phrase, header lines (`Name: value`), body. -/
structure Page where
  major : Str
  minor : Str
  code : Nat
  reason : Str
  headers : List Str
  body : Str
deriving DecidableEq, Repr

/-- Decimal digit. -/
def digit (n : Nat) : Char := Char.ofNat (48 + n % 10)

/-- The bytes that are sent. -/
def Page.text (p : Page) : Str :=
  "HTTP/".toList ++ p.major ++ '.' :: p.minor ++ ' ' :: [digit (p.code / 100), digit (p.code / 10), digit p.code] ++ ' ' :: p.reason
    ++ crlf ++ p.headers.flatMap (fun h => h ++ crlf) ++ crlf ++ p.body

/-- Blank, tab, and the other characters that C calls white space. -/
def blank (c : Char) : Prop := c = ' ' ∨ c = '\t' ∨ c = '\n' ∨ c = '\x0b' ∨ c = '\x0c' ∨ c = '\r'

/-- A line that is not empty, does not begin with white space and has no carriage return in it. -/
def PlainLine (s : Str) : Prop := '\r' ∉ s ∧ ∃ c t, s = c :: t ∧ ¬ blank c

/-- A complete response with a reason phrase and at least one header. -/
structure Page.Ok (p : Page) : Prop where
  major : p.major ≠ [] ∧ ∀ c ∈ p.major, '0' ≤ c ∧ c ≤ '9'
  minor : p.minor ≠ [] ∧ ∀ c ∈ p.minor, '0' ≤ c ∧ c ≤ '9'
  code : p.code < 1000
  reason : PlainLine p.reason
  some : p.headers ≠ []
  headers : ∀ h ∈ p.headers, PlainLine h

/-- The bytes of the request for `path` on `host` (RFC 1945, with the header for virtual hosts). -/
def getText (host path : Str) : Str :=
  "GET /".toList ++ path ++ " HTTP/1.0\r\nHost: ".toList ++ host ++ "\r\nAccept: */*\r\nConnection: close\r\n\r\n".toList

end Verif.Files
