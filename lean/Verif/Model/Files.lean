import Verif.Model.Uri
import Verif.Model.Make
/-!
# Files from the disk and from a web server

Models src/common/utilities/files.cpp (`ShellExpandFilenameExpr`, `HttpGet`, `OpenFileLocal`, `OpenFileHttp`, `OpenFile`; paths
are relative to `/repo/uhal/uhal`) and `HttpResponseGrammar` (/repo/uhal/grammars/src/common/HttpResponseGrammar.cpp). What is
assumed of Boost.Spirit is listed in `Verif/Model/Uri.lean`; in addition:
* `lexeme[p]` skips white space once, and then parses `p` without skipping;
* a sequence that fails leaves the attributes of the elements that succeeded in place; `double_` and `int_` store nothing if
  they fail, and `int_` fails if the number does not fit into an `int`.

Simplifications (all of them):
* Bytes are written as characters, here and in the file contents.
* `double_` does not accept `nan` and `inf`; the number itself, which nobody looks at, is not computed.
* The shell (`wordexp`), the file system, the name service and the network are parameters (`World`). They do not change while a
  file is opened. The server's answer depends on nothing but host and request; it ends with the end of the stream or an error.
* The callback does not throw (an exception in it would end the loop in `OpenFileLocal`).
* What `HttpGet<true>` writes to the log is left out. (It writes the status even if the parser has not set it.)
-/

set_option autoImplicit false

namespace Verif.Files

open Verif.Uri (space skip lit many at_)
open Verif.Make (isDigit decVal)

/-- `*(char_ - t)` without skipping: the characters before the first occurrence of `t`, and the rest. -/
def upTo (t : Str) : Str → Str × Str
  | [] => ([], [])
  | c :: r => if t.isPrefixOf (c :: r) then ([], c :: r) else (c :: (upTo t r).1, (upTo t r).2)

/-- `lexeme[ +(char_ - t) >> -lit(t) ]`, HttpResponseGrammar.cpp:73-74. -/
def part (t s : Str) : Option (Str × Str) :=
  let u := upTo t (skip s)
  if u.1 = [] then none else some (u.1, if t.isPrefixOf u.2 then u.2.drop t.length else u.2)

/-- Optional sign: whether it is a minus, and the rest. -/
def sign : Str → Bool × Str
  | '-' :: r => (true, r)
  | '+' :: r => (false, r)
  | r => (false, r)

/-- The exponent of a floating point number, if there is a complete one. -/
def expo : Str → Str
  | c :: r =>
    if (c = 'e' ∨ c = 'E') ∧ (sign r).2.takeWhile isDigit ≠ [] then (sign r).2.dropWhile isDigit else c :: r
  | [] => []

/-- `qi::double_`: what is left of the input. -/
def doubleP (s : Str) : Option Str :=
  let r := (sign (skip s)).2
  let n := r.takeWhile isDigit
  match r.dropWhile isDigit with
  | [] => if n = [] then none else some []
  | c :: q =>
    if c = '.' then
      if n = [] ∧ q.takeWhile isDigit = [] then none else some (expo (q.dropWhile isDigit))
    else if n = [] then none else some (expo (c :: q))

/-- `qi::int_`: the number and what is left of the input. -/
def intP (s : Str) : Option (Int × Str) :=
  let g := sign (skip s)
  let n := g.2.takeWhile isDigit
  if n = [] then none
  else if g.1 = true then
    if decVal n ≤ 2 ^ 31 then some (-(decVal n : Int), g.2.dropWhile isDigit) else none
  else if decVal n < 2 ^ 31 then some ((decVal n : Int), g.2.dropWhile isDigit) else none

/-- `struct HttpResponseType`, /repo/uhal/grammars/include/uhal/grammars/HttpResponseGrammar.hpp:51-65, without the version.
`status` is `none` as long as it is not initialised. -/
structure Response where
  method : Str
  status : Option Int
  statusText : Str
  headers : Str
  content : Str
deriving DecidableEq, Repr

/-- The attributes after `phrase_parse` with the rule `response`, HttpResponseGrammar.cpp:71-74. -/
def respond (s : Str) : Response :=
  let m := many (at_ ['/']) s
  if m.1 = [] then ⟨[], none, [], [], []⟩
  else match lit ['/'] m.2 with
    | none => ⟨m.1, none, [], [], []⟩
    | some r1 => match doubleP r1 with
      | none => ⟨m.1, none, [], [], []⟩
      | some r2 => match intP r2 with
        | none => ⟨m.1, none, [], [], []⟩
        | some (code, r3) => match part ['\r', '\n'] r3 with
          | none => ⟨m.1, some code, [], [], []⟩
          | some (t, r4) => match part ['\r', '\n', '\r', '\n'] r4 with
            | none => ⟨m.1, some code, t, [], []⟩
            | some (h, r5) => ⟨m.1, some code, t, h, skip r5⟩

/-- What comes of `HttpGet`: `true` with the content, `false`, an exception that is not one of uHAL's, undefined behaviour. -/
inductive Got
  | page (content : Str)
  | failed
  | foreign
  | ub
deriving DecidableEq, Repr

/-- The test at the end of `HttpGet`, files.cpp:266-271. Reading `status` before it has been set is undefined. -/
def judge (r : Response) : Got :=
  if r.method ≠ "HTTP".toList then .failed
  else match r.status with
    | none => .ub
    | some c => if c = 200 then .page r.content else .failed

/-- How a stream ends. -/
inductive NetEnd
  | eof
  | error
deriving DecidableEq, Repr

/-- The buffer after reading, files.cpp:215-248: its contents after `resize`, an error, or a write outside the buffer. -/
inductive Read
  | done (buf : Str)
  | failed
  | ub
deriving DecidableEq, Repr

/-- The loop that reads the reply, files.cpp:222-248, with buffers of `n` bytes: `boost::asio::read` fills `n` bytes from
position `size`, or reports an error with what there is. Every pass but the last takes `n` bytes, so a number of passes
greater than the length of the stream is no limit. -/
def readLoop (n : Nat) (e : NetEnd) : Nat → Str → Str → Nat → Read
  | 0, _, _, _ => .ub
  | f + 1, data, buf, size =>
    if buf.length < size + n then .ub
    else
      let k := min n data.length
      let buf' := buf.take size ++ data.take k ++ buf.drop (size + k)
      if data.length < n then
        match e with
        | .eof => .done (buf'.take (size + k))
        | .error => .failed
      else readLoop n e f (data.drop n) (buf' ++ List.replicate n '\x00') (size + k)

/-- Reading the reply from a new connection, files.cpp:215-248. -/
def readAll (n : Nat) (e : NetEnd) (data : Str) : Read :=
  readLoop n e (data.length + 1) data (List.replicate n '\x00') 0

/-- `mDefaultBufferSize`, files.cpp:216. -/
def bufferSize : Nat := 65536

/-- Splitting the URL at the first slash, files.cpp:154-166. -/
def splitUrl (s : Str) : Str × Str :=
  let h := many (at_ ['/']) s
  if h.1 = [] then ([], [])
  else (h.1, (many (fun _ => false) ((lit ['/'] h.2).getD h.2)).1)

/-- The request, files.cpp:192-198. -/
def request (u : Str × Str) : Str :=
  "GET /".toList ++ u.2 ++ " HTTP/1.0\r\n".toList ++ "Host: ".toList ++ u.1 ++ "\r\n".toList ++ "Accept: */*\r\n".toList
    ++ "Connection: close\r\n\r\n".toList

/-- Everything outside the program. -/
structure World where
  /-- `wordexp`: the words, `none` if it returns an error -/
  words : Str → Option (List Str)
  /-- `boost::filesystem::absolute` -/
  absolute : Str → Str → Str
  /-- `exists` and `is_regular_file` -/
  regular : Str → Bool
  /-- an `ifstream` can be opened -/
  readable : Str → Bool
  /-- contents of a file -/
  bytes : Str → Str
  /-- the name service knows the host -/
  resolves : Str → Bool
  /-- a connection to the host can be made -/
  connects : Str → Bool
  /-- what the host answers to a request; `none` if the request cannot be written -/
  answer : Str → Str → Option (Str × NetEnd)

/-- `HttpGet`, files.cpp:137-272. `resolver.resolve` is outside the `try` blocks: its exception leaves the function. -/
def httpGet (w : World) (url : Str) : Got :=
  let u := splitUrl url
  if w.resolves u.1 = false then .foreign
  else if w.connects u.1 = false then .failed
  else match w.answer u.1 (request u) with
    | none => .failed
    | some (data, e) => match readAll bufferSize e data with
      | .ub => .ub
      | .failed => .failed
      | .done buf => judge (respond buf)

/-- How opening files ends. -/
inductive Stop
  | ok
  | notFound
  | cannotOpen
  | badProtocol
  | foreign
  | ub
deriving DecidableEq, Repr

/-- A call of the callback: protocol, path, contents. -/
abbrev Call := Str × Str × Str

/-- The loop of `OpenFileLocal`, files.cpp:284-304. `&lFile[0]` of an empty vector is undefined. -/
def readFiles (w : World) : List Str → List Call × Stop
  | [] => ([], .ok)
  | p :: ps =>
    if w.readable p = false then ([], .cannotOpen)
    else if w.bytes p = [] then ([], .ub)
    else
      let r := readFiles w ps
      (("file".toList, p, w.bytes p) :: r.1, r.2)

/-- `ShellExpandFilenameExpr`, files.cpp:87-134, and `OpenFileLocal`, files.cpp:279-305. The result of `wordexp` is not looked
at: after an error the structure need not have been written. -/
def openLocal (w : World) (expr parent : Str) : List Call × Stop :=
  match w.words expr with
  | none => ([], .ub)
  | some ws =>
    let fs := (ws.map (fun p => w.absolute p parent)).filter w.regular
    if fs = [] then ([], .notFound) else readFiles w fs

/-- `OpenFileHttp`, files.cpp:308-321. -/
def openHttp (w : World) (url : Str) : List Call × Stop :=
  match httpGet w url with
  | .page c => ([("http".toList, url, c)], .ok)
  | .failed => ([], .cannotOpen)
  | .foreign => ([], .foreign)
  | .ub => ([], .ub)

/-- `OpenFile`, files.cpp:324-341. -/
def openFile (w : World) (proto expr parent : Str) : List Call × Stop :=
  if proto = "file".toList then openLocal w expr parent
  else if proto = "http".toList then openHttp w expr
  else ([], .badProtocol)

/-- Opening the files of a list one after the other, as `ConnectionManager::ConnectionManager`
(src/common/ConnectionManager.cpp:106-128) does; an exception ends the loop. -/
def openAll (w : World) (parent : Str) : List (Str × Str) → List Call × Stop
  | [] => ([], .ok)
  | (proto, expr) :: rest =>
    let r := openFile w proto expr parent
    if r.2 = .ok then
      let q := openAll w parent rest
      (r.1 ++ q.1, q.2)
    else r

end Verif.Files
