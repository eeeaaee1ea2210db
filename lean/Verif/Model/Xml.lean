import Verif.Model.Bits
/-!
# Address-table attributes: numbers and parser rules

Models `GetXMLattribute(…, uint32_t&)` and the rule-based parser (`Rule`, `Parser`) with the rules of
`NodeTreeBuilder`. Paths are relative to `/repo/uhal/uhal`.

Simplifications (all of them):
* Strings are lists of characters. pugixml is outside the model: an XML element is given by its attribute
  names and values (`pugi::xml_node::attribute` returns the first attribute with that name).
* `std::stringstream >> uint64_t` on at most ten digits (the code has checked that there are only digits of
  the base) is the positional value; the "C" locale is assumed (no digit grouping).
* `std::set<std::string>` and `std::unordered_map` are duplicate-free lists; the alphabetical order of the set
  only decides which bit of the hash an attribute gets.
* The text of messages is not modelled, except for the `resize` calls that can throw while it is built.
-/

set_option autoImplicit false

namespace Verif

/-- `std::string` -/
abbrev Str := List Char

/-! ## Numbers -/

/-- Outcome of reading a numeric attribute: a value, `NodeAttributeIncorrectValue`, or
`StringNumberWillNotFitInto32BitNumber`. -/
inductive NumOut
  | ok (v : W)
  | incorrect
  | tooBig
deriving DecidableEq, Repr

/-- `lBasePrefixLength`, src/common/utilities/xml.cpp:229-252. -/
def basePrefix (s : Str) : Nat :=
  let p := if s.length > 2 ∧ s[0]? = some '0' ∧ (s[1]? = some 'x' ∨ s[1]? = some 'X') then 2 else 0
  if s.length > 1 ∧ (s[0]? = some 'x' ∨ s[0]? = some 'X') then 1 else p

/-- The characters accepted by `find_first_not_of`, src/common/utilities/xml.cpp:250. -/
def digitChars (p : Nat) : Str :=
  if p ≠ 0 then ['0','1','2','3','4','5','6','7','8','9','a','b','c','d','e','f','A','B','C','D','E','F']
  else ['0','1','2','3','4','5','6','7','8','9']

/-- The value of a digit as read by the stream extraction operator (the same for all bases up to 16). -/
def digitVal (ch : Char) : Nat :=
  if '0'.toNat ≤ ch.toNat ∧ ch.toNat ≤ '9'.toNat then ch.toNat - '0'.toNat
  else if 'a'.toNat ≤ ch.toNat ∧ ch.toNat ≤ 'f'.toNat then ch.toNat - 'a'.toNat + 10
  else ch.toNat - 'A'.toNat + 10

/-- `ss >> lTarget` with `std::hex` or the default base, src/common/utilities/xml.cpp:267-268. -/
def streamRead (base : Nat) (s : Str) : Nat := s.foldl (fun n ch => base * n + digitVal ch) 0

/-- `GetXMLattribute(…, uint32_t&)` for an attribute that is present, src/common/utilities/xml.cpp:217-285. -/
def parseU32 (s : Str) : NumOut :=
  if s = [] then .incorrect else
  let p := basePrefix s
  if (s.drop p).any (fun ch => !(digitChars p).contains ch) then .incorrect else
  let ss := s.drop p
  if ss.length > 10 then .tooBig else
  let t := streamRead (if p ≠ 0 then 16 else 10) ss
  if t / 2 ^ 32 ≠ 0 then .tooBig else .ok (BitVec.ofNat 32 t)

/-! ## Rules -/

/-- 64-bit attribute hashes -/
abbrev Hash := BitVec 64

/-- `Rule<R>`, include/uhal/XmlParser.hpp, TemplateDefinitions/XmlParser.hxx:43-144. The action (a function
object) is represented by the rule's position in the parser (`mRuleId`). -/
structure Rule where
  required : List Str := []
  forbidden : List Str := []
  optional : List Str := []
  requiredHash : Hash := 0
  forbiddenHash : Hash := 0
deriving DecidableEq, Repr

/-- `std::set::insert` -/
def setInsert (x : Str) (l : List Str) : List Str := if l.contains x then l else l ++ [x]

/-- `Rule::require`, TemplateDefinitions/XmlParser.hxx:109-122; `none` is `ContradictoryParserRule`. -/
def Rule.require (r : Rule) (x : Str) : Option Rule :=
  if r.forbidden.contains x then none else some { r with required := setInsert x r.required }

/-- `Rule::forbid`, TemplateDefinitions/XmlParser.hxx:125-138. -/
def Rule.forbid (r : Rule) (x : Str) : Option Rule :=
  if r.required.contains x then none else some { r with forbidden := setInsert x r.forbidden }

/-- `Rule::optional`, TemplateDefinitions/XmlParser.hxx:141-146. -/
def Rule.opt (r : Rule) (x : Str) : Option Rule := some { r with optional := setInsert x r.optional }

/-- `Parser<R>`, TemplateDefinitions/XmlParser.hxx:240-252. -/
structure Parser where
  hashes : List (Str × Hash) := []
  next : Hash := 1
  rules : List Rule := []
deriving DecidableEq, Repr

/-- `mHashes.find` -/
def Parser.find (p : Parser) (x : Str) : Option Hash := (p.hashes.find? (·.1 == x)).map (·.2)

/-- One turn of the three loops of `addRule`: the hash of an attribute, entering it if it is new; `none` is
`TooManyAttributes`. TemplateDefinitions/XmlParser.hxx:262-281, 283-302, 304-320. -/
def Parser.hash (p : Parser) (x : Str) : Option (Hash × Parser) :=
  match p.find x with
  | some h => some (h, p)
  | none =>
    if p.next = 0#64 then none
    else some (p.next, { p with hashes := p.hashes ++ [(x, p.next)], next := p.next <<< 1 })

/-- One of the loops of `addRule`: the union of the hashes of a list of attributes. -/
def Parser.hashAll (p : Parser) : List Str → Hash → Option (Hash × Parser)
  | [], acc => some (acc, p)
  | x :: xs, acc => match p.hash x with
    | none => none
    | some (h, p') => p'.hashAll xs (acc ||| h)

/-- `Parser::addRule`, TemplateDefinitions/XmlParser.hxx:255-326. (When it throws, the incomplete rule stays
in `mRules`; both parsers are filled in the constructor of `NodeTreeBuilder`, which then fails.) -/
def Parser.addRule (p : Parser) (r : Rule) : Option Parser := do
  let (rh, p) ← p.hashAll r.required 0#64
  let (fh, p) ← p.hashAll r.forbidden 0#64
  let (_, p) ← p.hashAll r.optional 0#64
  return { p with rules := p.rules ++ [{ r with requiredHash := rh, forbiddenHash := fh }] }

/-- A sequence of `addRule` calls on a new parser. -/
def Parser.ofRules : List Rule → Parser → Option Parser
  | [], p => some p
  | r :: rs, p => do Parser.ofRules rs (← p.addRule r)

/-- Outcome of `Parser::operator()`: the position of the rule whose action is called, or an exception. -/
inductive Sel
  | rule (i : Nat)
  | unknownAttribute
  | ambiguous
  | noRulesPassed
  /-- `std::length_error` from `lString.resize ( lString.size() - 2 )` -/
  | lengthError
deriving DecidableEq, Repr

/-- The loop over the attributes, TemplateDefinitions/XmlParser.hxx:334-346. -/
def Parser.attrHash (p : Parser) : List Str → Hash → Option Hash
  | [], acc => some acc
  | x :: xs, acc => match p.find x with
    | none => none
    | some h => p.attrHash xs (acc ||| h)

/-- The test of one rule, TemplateDefinitions/XmlParser.hxx:353-368. -/
def Rule.passes (r : Rule) (h : Hash) : Bool :=
  if r.forbiddenHash &&& h ≠ 0#64 then false
  else if r.requiredHash &&& ~~~h ≠ 0#64 then false
  else true

/-- The loop that looks for the most stringent rule, TemplateDefinitions/XmlParser.hxx:379-393: state
`(lMostStringent, lCounter)`. -/
def mostStringent : List (Nat × Rule) → Option Nat × Nat → Option Nat × Nat
  | [], st => st
  | (i, r) :: rest, (m, cnt) =>
    if cnt < r.required.length then mostStringent rest (some i, r.required.length)
    else if cnt = r.required.length then mostStringent rest (none, cnt)
    else mostStringent rest (m, cnt)

/-- `Parser::operator()`, TemplateDefinitions/XmlParser.hxx:329-454, for an element with the given attributes
(name, value). The string built for the message is `name="value", ` for every attribute; cutting its last two
characters throws if there is none. -/
def Parser.select (p : Parser) (attrs : List (Str × Str)) : Sel :=
  match p.attrHash (attrs.map (·.1)) 0#64 with
  | none => .unknownAttribute
  | some h =>
    match (p.rules.zipIdx.filter (fun x => x.1.passes h)).map (fun x => (x.2, x.1)) with
    | [x] => .rule x.1
    | x :: y :: rest =>
      match (mostStringent (x :: y :: rest) (none, 0)).1 with
      | some i => .rule i
      | none => .ambiguous
    | [] =>
      let msg : Str := attrs.flatMap (fun a => a.1 ++ ['=', '"'] ++ a.2 ++ ['"', ',', ' '])
      if msg.length < 2 then .lengthError else .noRulesPassed

/-! ## The rules of the address-table parser -/

/-- The attribute names, src/common/NodeTreeBuilder.cpp:57-70. -/
inductive Attr
  | id | address | parameters | tags | description | permission | mask | mode | size | class_ | module_ | fwinfo
deriving DecidableEq, Repr

/-- src/common/NodeTreeBuilder.cpp:57-70. -/
def Attr.name : Attr → Str
  | .id => ['i', 'd']
  | .address => ['a', 'd', 'd', 'r', 'e', 's', 's']
  | .parameters => ['p', 'a', 'r', 'a', 'm', 'e', 't', 'e', 'r', 's']
  | .tags => ['t', 'a', 'g', 's']
  | .description => ['d', 'e', 's', 'c', 'r', 'i', 'p', 't', 'i', 'o', 'n']
  | .permission => ['p', 'e', 'r', 'm', 'i', 's', 's', 'i', 'o', 'n']
  | .mask => ['m', 'a', 's', 'k']
  | .mode => ['m', 'o', 'd', 'e']
  | .size => ['s', 'i', 'z', 'e']
  | .class_ => ['c', 'l', 'a', 's', 's']
  | .module_ => ['m', 'o', 'd', 'u', 'l', 'e']
  | .fwinfo => ['f', 'w', 'i', 'n', 'f', 'o']

/-- `lPlainNode`, src/common/NodeTreeBuilder.cpp:80-92. -/
def plainRule : Option Rule := do
  let r ← ({} : Rule).opt Attr.class_.name
  let r ← r.forbid Attr.module_.name
  let r ← r.forbid Attr.mask.name
  let r ← r.opt Attr.id.name
  let r ← r.opt Attr.address.name
  let r ← r.opt Attr.parameters.name
  let r ← r.opt Attr.fwinfo.name
  let r ← r.opt Attr.permission.name
  let r ← r.opt Attr.mode.name
  let r ← r.opt Attr.size.name
  let r ← r.opt Attr.tags.name
  r.opt Attr.description.name

/-- `lBitMask`, src/common/NodeTreeBuilder.cpp:94-106. -/
def maskRule : Option Rule := do
  let r ← ({} : Rule).require Attr.mask.name
  let r ← r.forbid Attr.class_.name
  let r ← r.forbid Attr.module_.name
  let r ← r.opt Attr.address.name
  let r ← r.forbid Attr.mode.name
  let r ← r.forbid Attr.size.name
  let r ← r.opt Attr.parameters.name
  let r ← r.opt Attr.fwinfo.name
  let r ← r.opt Attr.permission.name
  let r ← r.opt Attr.tags.name
  r.opt Attr.description.name

/-- `lModule`, src/common/NodeTreeBuilder.cpp:108-121. -/
def moduleRule : Option Rule := do
  let r ← ({} : Rule).opt Attr.id.name
  let r ← r.require Attr.module_.name
  let r ← r.forbid Attr.mask.name
  let r ← r.opt Attr.class_.name
  let r ← r.forbid Attr.mode.name
  let r ← r.forbid Attr.size.name
  let r ← r.forbid Attr.permission.name
  let r ← r.opt Attr.address.name
  let r ← r.opt Attr.parameters.name
  let r ← r.opt Attr.fwinfo.name
  let r ← r.opt Attr.tags.name
  r.opt Attr.description.name

/-- `mTopLevelNodeParser`, src/common/NodeTreeBuilder.cpp:123-125. -/
def topParser : Option Parser := do
  Parser.ofRules [← plainRule, ← maskRule, ← moduleRule] {}

/-- `mNodeParser`, src/common/NodeTreeBuilder.cpp:127-133. -/
def nodeParser : Option Parser := do
  let pl ← (← plainRule).require Attr.id.name
  let bm ← (← maskRule).require Attr.id.name
  let mo ← (← moduleRule).require Attr.id.name
  Parser.ofRules [pl, bm, mo] {}

end Verif
