import Verif.Model.TraMgr
/-!
# The allowlist of the ControlHub

Models the reading of the list of devices that may be accessed and the decision made with it, /repo/controlhub/src/ch_config.erl.

Simplifications (all of them):
* The file is given as its lines without the line ends; `file:read_line` returns them with `\n` at the end (and `\r\n` as `\n`), which
  line 150 takes off. Opening the file succeeds (otherwise line 144 fails and the application does not start).
* A dictionary is the list of the `store`s, latest first.
* `string:to_integer` is `toInteger`: an optional sign and the digits at the beginning; what follows is ignored.
* Log messages are left out.
-/

set_option autoImplicit false

namespace Verif.Allow
open Verif.TraMgr (Addr)

/-- `[0-9]`. -/
def isDig (c : Char) : Bool := decide ('0'.toNat ≤ c.toNat) && decide (c.toNat ≤ '9'.toNat)

/-- Value of a digit. -/
def digVal (c : Char) : Nat := c.toNat - '0'.toNat

/-- The digits at the beginning of a text, as a number. -/
def leadNat : List Char → Nat → Nat
  | c :: cs, acc => if isDig c then leadNat cs (acc * 10 + digVal c) else acc
  | [], acc => acc

/-- `element(1, string:to_integer(S))`; `none` is the atom `error`. -/
def toInteger : List Char → Option Int
  | '+' :: c :: cs => if isDig c then some (leadNat (c :: cs) 0) else none
  | '-' :: c :: cs => if isDig c then some (-(leadNat (c :: cs) 0 : Int)) else none
  | c :: cs => if isDig c then some (leadNat (c :: cs) 0) else none
  | [] => none

/-- `string:strip(S, both, C)`. -/
def strip (c : Char) (s : List Char) : List Char :=
  ((s.dropWhile (· == c)).reverse.dropWhile (· == c)).reverse

/-- `TrimmedLine`, ch_config.erl:150: line ends, then tabs, then spaces are removed at both ends. -/
def trim (s : List Char) : List Char := strip ' ' (strip '\t' (strip '\n' s))

/-- `[0-9]{1,3}` at the beginning of a text, followed by something that satisfies `k`. -/
def digs13 (k : List Char → Bool) : List Char → Bool
  | a :: s => isDig a && (k s || match s with
      | b :: s' => isDig b && (k s' || match s' with
          | c :: s'' => isDig c && k s''
          | [] => false)
      | [] => false)
  | [] => false

/-- Any character (the `\.` of an Erlang string is a plain dot, which as a regular expression matches every character but a line
end), followed by something that satisfies `k`. -/
def anyChar (k : List Char → Bool) : List Char → Bool
  | c :: s => c != '\n' && k s
  | [] => false

/-- The regular expression of ch_config.erl:161 at the beginning of a text; the optional port does not matter. -/
def matchHere (s : List Char) : Bool :=
  digs13 (anyChar (digs13 (anyChar (digs13 (anyChar (digs13 fun _ => true)))))) s

/-- `re:run`, ch_config.erl:161: the regular expression matches somewhere. -/
def matches? : List Char → Bool
  | [] => false
  | c :: s => matchHere (c :: s) || matches? s

/-- `re:split(S, "[\.:]")`, ch_config.erl:163. -/
def split : List Char → List (List Char)
  | [] => [[]]
  | c :: s =>
    if c == '.' || c == ':' then [] :: split s
    else match split s with
      | w :: ws => (c :: w) :: ws
      | [] => [[c]]

/-- A key of the dictionary: the four parts of the IP address. -/
abbrev Key := Option Int × Option Int × Option Int × Option Int

/-- A value of the dictionary: `any` or what `string:to_integer` makes of the port. -/
inductive Port
  | any
  | is (p : Option Int)
deriving DecidableEq, Repr

/-- The dictionary. -/
abbrev Dict := List (Key × Port)

/-- `dict:store`. -/
def store (d : Dict) (k : Key) (v : Port) : Dict := (k, v) :: d

/-- `dict:find`. -/
def find (d : Dict) (k : Key) : Option Port := (d.find? fun e => e.1 == k).map (·.2)

/-- Result of the handling of one line, ch_config.erl:150-185. -/
inductive Line
  | skip
  | add (k : Key) (v : Port)
  | bad
  | crash
deriving DecidableEq, Repr

/-- The handling of one line, ch_config.erl:150-185. -/
def parseLine (l : List Char) : Line :=
  match trim l with
  | [] => .skip
  | '#' :: _ => .skip
  | t =>
    if matches? t then
      match split t with
      | [a, b, c, d] => .add (toInteger a, toInteger b, toInteger c, toInteger d) .any
      | [a, b, c, d, p] => .add (toInteger a, toInteger b, toInteger c, toInteger d) (.is (toInteger p))
      | _ => .crash
    else .bad

/-- Result of `parse_device_allowlist`. -/
inductive Parsed
  | ok (d : Dict)
  | error
  | crash
deriving DecidableEq, Repr

/-- `parse_device_allowlist`, ch_config.erl:143-188. -/
def parseLines : List (List Char) → Dict → Parsed
  | [], d => .ok d
  | l :: ls, d =>
    match parseLine l with
    | .skip => parseLines ls d
    | .add k v => parseLines ls (store d k v)
    | .bad => .error
    | .crash => .crash

/-- The parameter `device_allowlist` once the application runs. -/
inductive Param
  | none
  | list (d : Dict)
  | unset
deriving DecidableEq, Repr

/-- `ch_config:init` as called by `controlhub_app:start`, ch_config.erl:55-67 and controlhub_app.erl:37: the parameter, or `none` if
the application does not start. The result `{stop, …}` of `init` is not looked at: the application starts without the parameter. -/
def init (file : Option (List (List Char))) : Option Param :=
  match file with
  | Option.none => some .none
  | some ls =>
    match parseLines ls [] with
    | .ok d => some (.list d)
    | .error => some .unset
    | .crash => Option.none

/-- What `get_device_access_status` returns; `crash` if the parameter is not set (ch_config.erl:79). -/
inductive Access
  | allow
  | deny
  | crash
deriving DecidableEq, Repr

/-- `ch_utils:ipv4_u32_addr_to_tuple`. -/
def ipKey (ip : Nat) : Key :=
  (some ((ip / 16777216 % 256 : Nat) : Int), some ((ip / 65536 % 256 : Nat) : Int), some ((ip / 256 % 256 : Nat) : Int),
    some ((ip % 256 : Nat) : Int))

/-- `get_device_access_status`, ch_config.erl:103-118. -/
def access (par : Param) (a : Addr) : Access :=
  match par with
  | .none => .allow
  | .unset => .crash
  | .list d =>
    match find d (ipKey a.ip) with
    | some .any => .allow
    | some (.is p) => if p = some (a.port : Int) then .allow else .deny
    | Option.none => .deny

/-- `device_allowlist_mode`. -/
inductive Mode
  | permissive
  | enforcing
deriving DecidableEq, Repr

/-- What `get_pid` does when there is no entry for the target, ch_device_client_registry.erl:71-82. -/
inductive Verdict
  | register
  | blocked
  | crash
deriving DecidableEq, Repr

/-- The decision in `get_pid`, ch_device_client_registry.erl:71-82. -/
def verdict (mode : Mode) (par : Param) (a : Addr) : Verdict :=
  match mode, access par a with
  | _, .crash => .crash
  | _, .allow => .register
  | .permissive, .deny => .register
  | .enforcing, .deny => .blocked

end Verif.Allow
