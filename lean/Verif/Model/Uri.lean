import Verif.Model.Xml
/-!
# URIs and the client factory

Models `URIGrammar` and `SemicolonDelimitedUriListGrammar` (/repo/uhal/grammars/src/common), `toString(URI)` (URI.cpp there) and
`ClientFactory` (/repo/uhal/uhal/src/common/ClientFactory.cpp).

The rules are written for Boost.Spirit with the skipper `ascii::space`. Of Spirit the following is used:
* every primitive parser (`char_`, `lit`, `punct`) first skips white space;
* `a - b` tries `b` first (with skipping) and fails if it succeeds; `+p`, `*p`, `-p` are greedy and never given back;
* in `a > b > …` a failure of the first element is a failure, a failure of a later element throws; `>>` binds tighter than `>`;
* no rule that fails without throwing has stored anything.

Simplification: a parser leaves the white space before which it stopped in place, the model may skip it already; every parser
that follows would skip it anyway, and nobody looks at what is left at the end.
-/

set_option autoImplicit false

namespace Verif.Uri

/-- `ascii::space`. -/
def space (c : Char) : Bool := c = ' ' ∨ (9 ≤ c.toNat ∧ c.toNat ≤ 13)

/-- `ascii::punct`. -/
def punct (c : Char) : Bool :=
  (33 ≤ c.toNat ∧ c.toNat ≤ 47) ∨ (58 ≤ c.toNat ∧ c.toNat ≤ 64) ∨ (91 ≤ c.toNat ∧ c.toNat ≤ 96) ∨ (123 ≤ c.toNat ∧ c.toNat ≤ 126)

/-- The skipper. -/
def skip (s : Str) : Str := s.dropWhile space

/-- `qi::lit(t)`: skip, then the characters of `t` without skipping in between; the rest of the input if they are there. -/
def lit (t s : Str) : Option Str := if t.isPrefixOf (skip s) then some ((skip s).drop t.length) else none

/-- `*(qi::char_ - stop)`: characters up to the first place (white space apart) at which `stop` holds. -/
def many (stop : Str → Bool) : Str → Str × Str
  | [] => ([], [])
  | c :: r =>
    if space c then many stop r
    else if stop (c :: r) then ([], c :: r)
    else (c :: (many stop r).1, (many stop r).2)

/-- Result of a parser: a value and the rest of the input, failure, or an exception (`expectation_failure`). -/
inductive Res (α : Type)
  | ok (a : α) (rest : Str)
  | fail
  | throws
deriving DecidableEq, Repr

/-- The next character is one of `cs`. -/
def at_ (cs : List Char) (s : Str) : Bool := s.head?.any (cs.contains ·)

/-- `struct URI`, /repo/uhal/grammars/include/uhal/grammars/URI.hpp:49-63. -/
structure Uri where
  protocol : Str
  hostname : Str
  port : Str
  path : Str
  extension : Str
  arguments : List (Str × Str)
deriving DecidableEq, Repr

/-- `lit(t) > +(char_ - stop)`, the shape of `port`, `path` and `extension`, under the optional operator `-`. -/
def optPart (t : Str) (stop : Str → Bool) (s : Str) : Res Str :=
  match lit t s with
  | none => .ok [] s
  | some r => if (many stop r).1 = [] then .throws else .ok (many stop r).1 (many stop r).2

/-- `*data_pairs`, URIGrammar.cpp:58-61. Every pass takes at least the two characters of a key and `=`, so that a number of
passes not smaller than the length of the input is no limit (`pairs_fuel`). -/
def pairs : Nat → Str → Res (List (Str × Str))
  | 0, s => .ok [] s
  | n + 1, s =>
    if (many (at_ ['=']) s).1 = [] then .ok [] s
    else match lit ['='] (many (at_ ['=']) s).2 with
      | none => .throws
      | some r =>
        let v := many (at_ ['&']) r
        let rest := (lit ['&'] v.2).getD v.2
        match pairs n rest with
        | .ok ps t => .ok (((many (at_ ['=']) s).1, v.1) :: ps) t
        | x => x

/-- `-(data_pairs_vector)`, URIGrammar.cpp:58. -/
def optPairs (s : Str) : Res (List (Str × Str)) :=
  match lit ['?'] s with
  | none => .ok [] s
  | some r => pairs r.length r

/-- The rule `start`, URIGrammar.cpp:48-61. -/
def parse (s : Str) : Res Uri :=
  let p := many (at_ [':']) s
  if p.1 = [] then .fail
  else match lit "://".toList p.2 with
    | none => .throws
    | some r =>
      let h := many (at_ [':', '?']) r
      if h.1 = [] then .throws
      else match optPart [':'] (fun t => t.head?.any punct) h.2 with
        | .fail => .throws
        | .throws => .throws
        | .ok port r1 => match optPart ['/'] (at_ ['.', '?']) r1 with
          | .fail => .throws
          | .throws => .throws
          | .ok path r2 => match optPart ['.'] (at_ ['?']) r2 with
            | .fail => .throws
            | .throws => .throws
            | .ok ext r3 => match optPairs r3 with
              | .fail => .throws
              | .throws => .throws
              | .ok args r4 => .ok ⟨p.1, h.1, port, path, ext, args⟩ r4

/-- The arguments in `toString`, URI.cpp:81-97. -/
def printArgs : List (Str × Str) → Str
  | [] => []
  | [a] => a.1 ++ '=' :: a.2
  | a :: as => a.1 ++ '=' :: a.2 ++ '&' :: printArgs as

/-- `toString`, URI.cpp:61-101. -/
def print (u : Uri) : Str :=
  u.protocol ++ "://".toList ++ u.hostname
    ++ (if u.port = [] then [] else ':' :: u.port)
    ++ (if u.path = [] then [] else '/' :: u.path)
    ++ (if u.extension = [] then [] else '.' :: u.extension)
    ++ (if u.arguments = [] then [] else '?' :: printArgs u.arguments)

/-! ## The client factory -/

/-- `mClientMap`: protocol and whether the client is user defined. Clients are named by the protocol they were registered for;
in an `unordered_map` the order plays no role. -/
abbrev Registry := List (Str × Bool)

/-- `add`, include/uhal/TemplateDefinitions/ClientFactory.hxx:46-62: a protocol that is there already is left alone. -/
def Registry.add (r : Registry) (p : Str) (user : Bool) : Registry := if (r.lookup p).isSome then r else r ++ [(p, user)]

/-- The built-in clients, src/common/ClientFactory.cpp:65-87. -/
def builtIn : Registry :=
  ["ipbusudp-1.3", "ipbusudp-2.0", "ipbustcp-1.3", "ipbustcp-2.0", "chtcp-1.3", "chtcp-2.0", "ipbuspcie-2.0", "ipbusmmap-2.0"].foldl
    (fun r p => r.add p.toList false) []

/-- Exceptions of `getClient`. -/
inductive Exc
  | failedToParseURI | protocolDoesNotExist | protocolNotEnabled
deriving DecidableEq, Repr

/-- `getClient`, src/common/ClientFactory.cpp:96-140. The result of `phrase_parse` is ignored: if the parser fails without
throwing, the default `URI` is used. Result: the protocol whose creator is called, and the URI it is given. -/
def getClient (r : Registry) (enabled : List Str) (uri : Str) : Except Exc (Str × Uri) :=
  let go (u : Uri) : Except Exc (Str × Uri) :=
    match r.lookup u.protocol with
    | none => .error .protocolDoesNotExist
    | some user => if user = true ∧ u.protocol ∉ enabled then .error .protocolNotEnabled else .ok (u.protocol, u)
  match parse uri with
  | .throws => .error .failedToParseURI
  | .fail => go ⟨[], [], [], [], [], []⟩
  | .ok u _ => go u

/-! ## Lists of files -/

/-- `*data_pairs`, SemicolonDelimitedUriListGrammar.cpp:47-50; passes as in `pairs`. -/
def uriList : Nat → Str → Res (List (Str × Str))
  | 0, s => .ok [] s
  | n + 1, s =>
    let s' := (s.dropWhile fun c => space c || c == ';')
    let p := many (fun t => "://".toList.isPrefixOf t) s'
    if p.1 = [] then .ok [] s
    else match lit "://".toList p.2 with
      | none => .throws
      | some r =>
        let v := many (at_ [';']) r
        match uriList n (v.2.dropWhile fun c => space c || c == ';') with
        | .ok ps t => .ok ((p.1, v.1) :: ps) t
        | x => x

/-- `ParseSemicolonDelimitedUriList`, /repo/uhal/uhal/src/common/utilities/files.cpp:64-84: `none` if it throws. -/
def parseUriList (s : Str) : Option (List (Str × Str)) := match uriList s.length s with
  | .ok ps _ => some ps
  | _ => none

/-- A list as a user writes it. -/
def printUriList : List (Str × Str) → Str
  | [] => []
  | [a] => a.1 ++ "://".toList ++ a.2
  | a :: as => a.1 ++ "://".toList ++ a.2 ++ ';' :: printUriList as

end Verif.Uri
