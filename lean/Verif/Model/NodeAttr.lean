import Verif.Model.Xml
/-!
# The attributes `parameters` and `fwinfo`

Models /repo/uhal/grammars/src/common/NodeTreeParametersGrammar.cpp and NodeTreeFirmwareInfoAttributeGrammar.cpp as they are used in
/repo/uhal/uhal/src/common/NodeTreeBuilder.cpp:376-395 and 508-528. (NodeTreeClassAttributeGrammar.cpp has the same rules as the latter
and is not used: the class is taken as it stands.)

Simplifications (all of them):
* Boost.Spirit: sequences, alternatives, repetitions and optional parts take the longest match without going back; `phrase_parse` and
  rules with a skipper pass over white space before every character, rules without one do so only at the very beginning; `a > b` throws
  if `b` does not match; the attribute of a part that fails is not used. This is part of the trusted reading of the library.
* `unordered_map` is the list of its entries in the order in which they were inserted.
-/

set_option autoImplicit false

namespace Verif

/-- `boost::spirit::ascii::space` -/
def isSpc (c : Char) : Bool := c == ' ' || c == '\t' || c == '\n' || c == '\x0b' || c == '\x0c' || c == '\r'

/-- `char_("a-zA-Z_")` -/
def isKeyStart (c : Char) : Bool := ('a' ≤ c && c ≤ 'z') || ('A' ≤ c && c ≤ 'Z') || c == '_'

/-- `char_("a-zA-Z_0-9")` -/
def isKeyChar (c : Char) : Bool := isKeyStart c || ('0' ≤ c && c ≤ '9')

/-- `unordered_map::insert` -/
def mapInsert (m : List (Str × Str)) (p : Str × Str) : List (Str × Str) := if p.1 ∈ m.map (·.1) then m else m ++ [p]

/-- The rule `pair`, NodeTreeParametersGrammar.cpp:48: name, value (empty if there is none) and the rest. -/
def parsePair : Str → Option ((Str × Str) × Str)
  | [] => none
  | c :: s =>
    if isKeyStart c then
      let key := c :: s.takeWhile isKeyChar
      let rest := s.dropWhile isKeyChar
      match rest with
      | '=' :: r =>
        if r.takeWhile isKeyChar = [] then some ((key, []), rest)
        else some ((key, r.takeWhile isKeyChar), r.dropWhile isKeyChar)
      | _ => some ((key, []), rest)
    else none

/-- `*((lit(';') | '&') >> pair)`, NodeTreeParametersGrammar.cpp:47; `fuel` bounds the number of pairs. -/
def parsePairs : Nat → Str → List (Str × Str)
  | 0, _ => []
  | _ + 1, [] => []
  | fuel + 1, c :: s =>
    if c == ';' || c == '&' then
      match parsePair s with
      | some (p, r) => p :: parsePairs fuel r
      | none => []
    else []

/-- All pairs that are found, in order: the rule `query`. Text that does not match is left over; nobody looks at it. -/
def parsePars (s : Str) : List (Str × Str) :=
  match parsePair (s.dropWhile isSpc) with
  | some (p, r) => p :: parsePairs r.length r
  | none => []

/-- `lPars` in `setPars`, NodeTreeBuilder.cpp:387-388. -/
def parsMap (s : Str) : List (Str × Str) := (parsePars s).foldl mapInsert []

/-- `*data_pairs`, NodeTreeFirmwareInfoAttributeGrammar.cpp:49-52, on a text without white space: `none` if an expectation fails. -/
def parseFwArgs : Nat → Str → Option (List (Str × Str))
  | 0, _ => some []
  | fuel + 1, s =>
    let key := s.takeWhile (· != '=')
    if key = [] then some []
    else match s.dropWhile (· != '=') with
      | [] => none
      | _ :: r =>
        (parseFwArgs fuel ((r.dropWhile (· != ';')).drop 1)).map fun l => (key, r.takeWhile (· != ';')) :: l

/-- The rule `start`, NodeTreeFirmwareInfoAttributeGrammar.cpp:47-48: the type and the arguments; `none` if an expectation fails. Without
a type the parser fails, which nobody looks at, and both are empty. -/
def parseFw (s : Str) : Option (Str × List (Str × Str)) :=
  let t := s.filter (fun c => !isSpc c)
  let type := t.takeWhile (· != ';')
  if type = [] then some ([], [])
  else match t.dropWhile (· != ';') with
    | [] => some (type, [])
    | _ :: r => (parseFwArgs (r.length + 1) r).map fun l => (type, l)

end Verif
