import Verif.Model.Header
import Verif.Model.Fmt
/-!
# The packet inspectors

Model of `HostToTargetInspector` and `TargetToHostInspector`, /repo/uhal/uhal/src/common/IPbusInspector.cpp: the function `analyze` with its virtual functions as a
parameter (`cb`), and the virtual functions of the inspectors themselves, which write to the log. Words of the packet are a list; reading behind its end is
undefined (`ub`). The dump of the words at the level `Debug` (63-66) is left out.
-/

set_option autoImplicit false

namespace Verif.Insp

/-- How `analyze` ends: what it returns, the state of the object, and the words from `aIt` on. `spins`: no end (excluded by C70). -/
inductive Out (σ : Type)
  | ret (ok : Bool) (s : σ) (rest : List W)
  | ub
  | spins
deriving DecidableEq

variable {σ : Type}

/-- Arguments of the functions called for a transaction of a request. -/
inductive Req
  | bot
  | niRead (a : W)
  | read (a : W)
  | cfgRead (a : W)
  | niWrite (a : W) (ds : List W)
  | write (a : W) (ds : List W)
  | rmwSum (a x : W)
  | rmwBits (a x o : W)
deriving DecidableEq, Repr

/-- Calls of virtual functions, with the members of the object that they may read (`mHeader` and its fields; `mPacketHeader`), IPbusInspector.hpp:93-160; and two
messages that `analyze` writes itself. -/
inductive HCall
  | control (p : W)
  | status (p : W)
  | resend (p : W)
  | unknownPacket (p : W)
  | txn (raw : W) (h : Hdr) (r : Req)
  | unknownType (raw : W) (h : Hdr)
  /-- "Unable to parse send header", 105 -/
  | unparsable (raw : W)
  /-- "Bad InfoCode value", 127 -/
  | badInfo (raw : W) (h : Hdr)
deriving DecidableEq, Repr

/-- What follows the header of a transaction, `switch ( mType )`, 131-176. `none`: unknown type; `some none`: reads behind the end. -/
def hostBody (h : Hdr) (t : List W) : Option (Option (Req × List W)) :=
  match h.ty with
  | .bot => some (some (.bot, t))
  | .niRead => match t with
    | a :: t => some (some (.niRead a, t))
    | _ => some none
  | .read => match t with
    | a :: t => some (some (.read a, t))
    | _ => some none
  | .configRead => match t with
    | a :: t => some (some (.cfgRead a, t))
    | _ => some none
  | .niWrite => match t with
    | a :: t => if h.wc.toNat ≤ t.length then some (some (.niWrite a (t.take h.wc.toNat), t.drop h.wc.toNat)) else some none
    | _ => some none
  | .write => match t with
    | a :: t => if h.wc.toNat ≤ t.length then some (some (.write a (t.take h.wc.toNat), t.drop h.wc.toNat)) else some none
    | _ => some none
  | .rmwSum => match t with
    | a :: x :: t => some (some (.rmwSum a x, t))
    | _ => some none
  | .rmwBits => match t with
    | a :: x :: o :: t => some (some (.rmwBits a x o, t))
    | _ => some none
  | .rai => none

/-- `HostToTargetInspector::analyze`, 60-194. `start`: at the beginning of the function; otherwise at the beginning of the loop. `cb s c` calls the virtual
function `c`; the flag is what `control_packet_header` returns. In IPbus 1.3 `mPacketType` stays 0. In the recursive call (114) `aContinueOnError` has its default,
`true`, as in the caller. -/
def hostRun (v : Ver) (cb : σ → HCall → σ × Bool) (cont : Bool) : Nat → Bool → List W → σ → Out σ
  | 0, _, _, _ => .spins
  | fuel + 1, true, ws, s =>
    match v with
    | .v1 => hostRun v cb cont fuel false ws s
    | .v2 =>
      match ws with
      | [] => .ub
      | p :: t =>
        if p &&& 0xF#32 = 0#32 then
          let r := cb s (.control p)
          if r.2 = false then .ret true r.1 t else hostRun v cb cont fuel false t r.1
        else if p &&& 0xF#32 = 1#32 then .ret true (cb s (.status p)).1 []
        else if p &&& 0xF#32 = 2#32 then .ret true (cb s (.resend p)).1 []
        else .ret false (cb s (.unknownPacket p)).1 t
  | fuel + 1, false, ws, s =>
    match ws with
    | [] => .ub
    | w :: t =>
      match extractHeader v w with
      | none =>
        let s' := (cb s (.unparsable w)).1
        match v with
        | .v1 => .ret false s' t
        | .v2 => if cont then hostRun v cb cont fuel true (w :: t) s' else .ret true s' (w :: t)
      | some h =>
        if h.info ≠ reqInfo v then .ret false (cb s (.badInfo w h)).1 t
        else match hostBody h t with
          | none => .ret false (cb s (.unknownType w h)).1 t
          | some none => .ub
          | some (some (r, t')) =>
            let s' := (cb s (.txn w h r)).1
            if t' = [] then .ret true s' [] else hostRun v cb cont fuel false t' s'

/-- `HostToTargetInspector::analyze ( aIt , aEnd , aContinueOnError )`. -/
def hostAnalyze (v : Ver) (cb : σ → HCall → σ × Bool) (cont : Bool) (ws : List W) (s : σ) : Out σ :=
  hostRun v cb cont (2 * ws.length + 3) true ws s

/-- Calls of the virtual functions of `TargetToHostInspector`, IPbusInspector.hpp:203-251; `txn`: with the words that belong to the transaction. -/
inductive TCall
  | control (p : W)
  | status (p : W)
  | unknownPacket (p : W)
  | txn (raw : W) (h : Hdr) (ds : List W)
  | unknownType (raw : W) (h : Hdr)
  /-- "Unable to parse reply header", 363 -/
  | unparsable (raw : W)
deriving DecidableEq, Repr

/-- What follows the header of a reply, `switch ( mType )`, 382-421: there is no case for `CONFIG_SPACE_READ`. -/
def targetBody (h : Hdr) (t : List W) : Option (Option (List W × List W)) :=
  let take (n : Nat) : Option (List W × List W) := if n ≤ t.length then some (t.take n, t.drop n) else none
  match h.ty with
  | .bot => some (take 0)
  | .niRead => some (take h.wc.toNat)
  | .read => some (take h.wc.toNat)
  | .niWrite => some (take 0)
  | .write => some (take 0)
  | .rmwSum => some (take 1)
  | .rmwBits => some (take 1)
  | .configRead => none
  | .rai => none

/-- `TargetToHostInspector::analyze`, 325-439. -/
def targetRun (v : Ver) (cb : σ → TCall → σ × Bool) (cont : Bool) : Nat → Bool → List W → σ → Out σ
  | 0, _, _, _ => .spins
  | fuel + 1, true, ws, s =>
    match v with
    | .v1 => targetRun v cb cont fuel false ws s
    | .v2 =>
      match ws with
      | [] => .ub
      | p :: t =>
        if p &&& 0xF#32 = 0#32 then
          let r := cb s (.control p)
          if r.2 = false then .ret false r.1 t else targetRun v cb cont fuel false t r.1
        else if p &&& 0xF#32 = 1#32 then .ret true (cb s (.status p)).1 []
        else .ret false (cb s (.unknownPacket p)).1 t
  | fuel + 1, false, ws, s =>
    match ws with
    | [] => .ub
    | w :: t =>
      match extractHeader v w with
      | none =>
        let s' := (cb s (.unparsable w)).1
        match v with
        | .v1 => .ret false s' t
        | .v2 => if cont then targetRun v cb cont fuel true (w :: t) s' else .ret true s' (w :: t)
      | some h =>
        match targetBody h t with
        | none => .ret false (cb s (.unknownType w h)).1 t
        | some none => .ub
        | some (some (ds, t')) =>
          let s' := (cb s (.txn w h ds)).1
          if t' = [] then .ret true s' [] else targetRun v cb cont fuel false t' s'

/-- `TargetToHostInspector::analyze ( aIt , aEnd , aContinueOnError )`. -/
def targetAnalyze (v : Ver) (cb : σ → TCall → σ × Bool) (cont : Bool) (ws : List W) (s : σ) : Out σ :=
  targetRun v cb cont (2 * ws.length + 3) true ws s

/-- Levels of the messages. -/
inductive Lv
  | error
  | notice
deriving DecidableEq, Repr

/-- `Integer ( w, IntFmt<hex,fixed>() )`, then a text. -/
def hexThen (w : W) (t : Str) : Option Str := do
  let x ← Fmt.hexFixed 0 4 w
  return x ++ t

/-- `Integer ( w )`. -/
def dec (w : W) : Option Str := Fmt.decVar false w

/-- `mPacketCounter`, 76, 333. -/
def counter (p : W) : W := (p >>> 8) &&& 0xFFFF#32

/-- `… size N, transaction ID I`. -/
def sized (raw : W) (h : Hdr) (name : Str) : Option Str := do
  let n ← dec h.wc
  let i ← dec h.id
  hexThen raw (" | ".toList ++ name ++ ", size ".toList ++ n ++ ", transaction ID ".toList ++ i)

/-- `… transaction ID I`. -/
def plain (raw : W) (h : Hdr) (name : Str) : Option Str := do
  let i ← dec h.id
  hexThen raw (" | ".toList ++ name ++ ", transaction ID ".toList ++ i)

/-- The loops over data, 240-243, 256-259, 449-452, 463-466. `lCounter` is a `uint32_t`. -/
def dataLines : W → List W → Option (List Str)
  | _, [] => some []
  | k, d :: ds => do
    let i ← dec k
    let l ← hexThen d (" |  > Data [".toList ++ i ++ "]".toList)
    let r ← dataLines (k + 1) ds
    return l :: r

def addrLine (a : W) : Option Str := hexThen a " |  > Address".toList

/-- What the functions of `HostToTargetInspector` write, 197-305, and the messages of `analyze`, 105, 127 (the second message of 112 is left out). -/
def HCall.lines : HCall → Option (Lv × List Str)
  | .control p => do
    let n ← dec (counter p)
    let l ← hexThen p (" | Control (Instruction) Packet Header , Packet Counter ".toList ++ n)
    return (.notice, [l])
  | .status p => do return (.notice, [← hexThen p " | Status Packet Header".toList])
  | .resend p => do return (.notice, [← hexThen p " | Resend Request Packet Header".toList])
  | .unknownPacket p => do return (.error, [← hexThen p " | Unknown Packet Header".toList])
  | .txn w h .bot => do return (.notice, [← plain w h "BOT".toList])
  | .txn w h (.niRead a) => do return (.notice, [← sized w h "Non-incrementing read".toList, ← addrLine a])
  | .txn w h (.read a) => do return (.notice, [← sized w h "Incrementing read".toList, ← addrLine a])
  | .txn w h (.cfgRead a) => do return (.notice, [← sized w h "Incrementing 'configuration space' read".toList, ← addrLine a])
  | .txn w h (.niWrite a ds) => do return (.notice, (← sized w h "Non-incrementing write".toList) :: (← addrLine a) :: (← dataLines 0 ds))
  | .txn w h (.write a ds) => do return (.notice, (← sized w h "Incrementing write".toList) :: (← addrLine a) :: (← dataLines 0 ds))
  | .txn w h (.rmwSum a x) => do
    return (.notice, [← plain w h "Read-modify-write sum".toList, ← addrLine a, ← hexThen x " |  > Addend".toList])
  | .txn w h (.rmwBits a x o) => do
    return (.notice, [← plain w h "Read-modify-write bits".toList, ← addrLine a, ← hexThen x " |  > And-term".toList, ← hexThen o " |  > Or-term".toList])
  | .unknownType w _ => do return (.error, [← hexThen w " | Unknown Transaction Header".toList])
  | .unparsable w => do return (.error, ["Unable to parse send header ".toList ++ (← hexThen w [])])
  | .badInfo w h => do
    let i ← Fmt.decVar false h.info
    let x ← hexThen w []
    return (.error, ["Bad InfoCode value of ".toList ++ i ++ " detected in IPbus transaction request header ".toList ++ x])

/-- What the functions of `TargetToHostInspector` write, 442-525, and 363. The function is chosen by the type. -/
def TCall.lines : TCall → Option (Lv × List Str)
  | .control p => do
    let n ← dec (counter p)
    let l ← hexThen p (" | Control (Instruction) Packet Header , Packet Counter ".toList ++ n)
    return (.notice, [l])
  | .status p => do return (.notice, [← hexThen p " | Status Packet Header".toList])
  | .unknownPacket p => do return (.error, [← hexThen p " | Unknown Packet Header".toList])
  | .txn w h ds =>
    match h.ty with
    | .bot => do return (.notice, [← plain w h "BOT".toList])
    | .niRead => do return (.notice, (← sized w h "Non-incrementing read".toList) :: (← dataLines 0 ds))
    | .read => do return (.notice, (← sized w h "Incrementing read".toList) :: (← dataLines 0 ds))
    | .niWrite => do return (.notice, [← sized w h "Non-incrementing write".toList])
    | .write => do return (.notice, [← sized w h "Incrementing write".toList])
    | .rmwSum => do return (.notice, (← plain w h "Read-modify-write sum".toList) :: (← ds.mapM fun d => hexThen d " |  > Data".toList))
    | .rmwBits => do return (.notice, (← plain w h "Read-modify-write bits".toList) :: (← ds.mapM fun d => hexThen d " |  > Data".toList))
    | _ => none
  | .unknownType w _ => do return (.error, [← hexThen w " | Unknown Transaction Header".toList])
  | .unparsable w => do return (.error, ["Unable to parse reply header ".toList ++ (← hexThen w [])])

/-- An inspector: every function writes to the log, `control_packet_header` returns `true`. The state is the log so far. -/
def logged {α : Type} (s : List α) (c : α) : List α × Bool := (s ++ [c], true)

/-- The whole text. -/
def hostText (cs : List HCall) : Option (List Str) := (cs.mapM HCall.lines).map fun l => l.flatMap (·.2)

def targetText (cs : List TCall) : Option (List Str) := (cs.mapM TCall.lines).map fun l => l.flatMap (·.2)

end Verif.Insp
