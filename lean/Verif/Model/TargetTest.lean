import Verif.Model.Hub
/-!
# The test script for targets

Model of /repo/controlhub/test_ipbus2_target.escript: random transactions in packets for one target; after each packet a status request, a request to send the reply
again, and a ping. Line numbers without a file refer to the script.

`random:uniform` draws from an arbitrary sequence of numbers (the script does not call `random:seed`, so that in fact it is always the same one). The target and `ping` are
parameters; the target answers each datagram with one datagram or not at all, within the time that the script waits for it. Not modelled: the printing (except for
`trans_as_string`, in which `reg_values_after` could fail), little-endian packets and the functions for wrong packet IDs (`change_pkt_id`), which are not used; a negative
`NextPktId`. An exception of Erlang is `none` in the functions, `crash` at the end.
-/

set_option autoImplicit false

namespace Verif.TgtTest
open Verif.Hub (Bytes)

/-- What `random:uniform` will draw from. -/
abbrev Gen : Type := Nat → Nat

/-- `random:uniform`: a number from 1 to `n`. -/
def uniform (n : Nat) (g : Gen) : Nat × Gen := (1 + g 0 % n, fun k => g (k + 1))

/-- `rand_int`, 284-285; the script uses it with 1 ≤ `a` < `b` only. -/
def randInt (a b : Nat) (g : Gen) : Nat × Gen := (a - 1 + (uniform (b - a + 1) g).1, (uniform (b - a + 1) g).2)

/-- `rand_uint32`, 287-288. -/
def randWord (g : Gen) : Nat × Gen := ((uniform (2 ^ 32) g).1 - 1, (uniform (2 ^ 32) g).2)

/-- `rand_uint32s`, 290-296: `n` more words. -/
def randWords : Nat → List Nat → Gen → List Nat × Gen
  | 0, acc, g => (acc, g)
  | n + 1, acc, g => randWords n ((randWord g).1 :: acc) (randWord g).2

/-- Types of transactions, 247-252. -/
inductive TType
  | read
  | write
  | rmwbits
  | rmwsum
deriving DecidableEq, Repr

/-- `#trans`, 32; `addr` with the depth, which is 1 if `addr` is not a tuple; `valid` is always `valid`; `before = none`: `unknown`. -/
structure Trans where
  ty : TType
  id : Nat
  addr : Nat
  depth : Nat
  params : List Nat
  before : Option (List Nat)
deriving DecidableEq, Repr

/-- `rand_single_trans_type`, 301-307. -/
def randSingle (g : Gen) : TType × Gen :=
  (match (randInt 1 4 g).1 with
    | 1 => .read
    | 2 => .write
    | 3 => .rmwbits
    | _ => .rmwsum, (randInt 1 4 g).2)

/-- `rand_block_trans_type`, 309-313. -/
def randBlock (g : Gen) : TType × Gen :=
  (match (randInt 1 2 g).1 with
    | 1 => .read
    | _ => .write, (randInt 1 2 g).2)

/-- `reg_values_after`, 264-278. -/
def regValuesAfter (r : Trans) : Option (Option (List Nat)) :=
  match r.ty with
  | .read => some r.before
  | .write => some (some r.params)
  | .rmwbits => match r.before, r.params with
    | some [p], [a, o] => some (some [(p &&& a) ||| o])
    | _, _ => none
  | .rmwsum => match r.before, r.params with
    | some [p], [x] => some (some [(p + x) % 2 ^ 32])
    | _, _ => none

/-- The type of the next transaction, 238-245. -/
def randType (depth : Nat) (prev : Option (List Nat)) (g : Gen) : TType × Gen :=
  match prev with
  | none => (.write, g)
  | some _ => if 1 < depth then randBlock g else randSingle g

/-- `Params`, 247-252. -/
def randParams (ty : TType) (depth : Nat) (g : Gen) : List Nat × Gen :=
  match ty with
  | .read => ([], g)
  | .write => randWords depth [] g
  | .rmwbits => randWords 2 [] g
  | .rmwsum => randWords 1 [] g

/-- `gen_trans_subseq/4`, 233-261: `left` more transactions. -/
def subseq (addr depth : Nat) : Nat → List Trans → Option (List Nat) → Gen → Option (List Trans × Gen)
  | 0, acc, _, g => some (acc.reverse, g)
  | left + 1, acc, prev, g =>
    let ty := randType depth prev g
    let ps := randParams ty.1 depth ty.2
    let id := randInt 1 0xfff ps.2
    let r : Trans := ⟨ty.1, id.1 - 1, addr, depth, ps.1, prev⟩
    match regValuesAfter r with
    | none => none
    | some after => subseq addr depth left (r :: acc) after id.2

/-- `gen_trans_subseq/0` and `/1`, 215-230. -/
def genSubseq (g : Gen) : Option (List Trans × Gen) :=
  let k := randInt 1 2 g
  let n := randInt 1 10 k.2
  if k.1 = 1 then subseq 2 1 n.1 [] none n.2
  else
    let d := randInt 2 255 n.2
    subseq 0x1000 d.1 n.1 [] none d.2

/-- `top_up_trans_seq`, 209-212, at most `fuel` rounds (each adds a transaction at least: `topUp_ok` in `Verif/Lemmas/TargetTest.lean`). -/
def topUp (target : Nat) : Nat → List Trans → Gen → Option (List Trans × Gen)
  | 0, acc, g => some (acc, g)
  | fuel + 1, acc, g =>
    if acc.length < target then
      match genSubseq g with
      | none => none
      | some (l, g) => topUp target fuel (acc ++ l) g
    else some (acc, g)

/-! ## Packets -/

/-- `<< X:32/big >>`. -/
def bin32 (x : Nat) : Bytes := [x / 2 ^ 24 % 256, x / 2 ^ 16 % 256, x / 2 ^ 8 % 256, x % 256]

/-- `create_binary`, 449-464. -/
def createBinary (ws : List Nat) : Bytes := ws.flatMap bin32

/-- `pkt_header`, 366-375. -/
def pktHeader (id : Nat) : Bytes := bin32 (2 * 2 ^ 28 + id * 2 ^ 8 + 15 * 2 ^ 4)

/-- `MAX_IPBUS_PKT_SIZE`, 27. -/
def maxPkt : Nat := 368 * 4

/-- `trans_binary_size`, 382-393: request and response. -/
def transSize (r : Trans) : Option (Nat × Nat) :=
  match r.ty with
  | .read => r.before.map fun vs => (8, 4 + 4 * vs.length)
  | .write => some (8 + 4 * r.params.length, 4)
  | .rmwbits => some (4 * 4, 4 * 2)
  | .rmwsum => some (4 * 3, 4 * 2)

/-- `trans_binary`, 429-441. -/
def transBinary (id words ty info : Nat) (body : List Nat) : Bytes :=
  let p := if 0xfff < id ∨ 0xff < words then (id % 0xfff, words % 0xff) else (id, words)
  createBinary ((2 * 2 ^ 28 + p.1 * 2 ^ 16 + p.2 * 2 ^ 8 + ty * 2 ^ 4 + info) :: body)

/-- `gen_trans`, 398-425: request and response. -/
def genTrans (r : Trans) : Option (Bytes × Bytes) :=
  match r.ty with
  | .read => r.before.map fun vs => (transBinary r.id vs.length 0 15 [r.addr], transBinary r.id vs.length 0 0 vs)
  | .write => some (transBinary r.id r.params.length 1 15 (r.addr :: r.params), transBinary r.id r.params.length 1 0 [])
  | .rmwbits => r.before.map fun vs => (transBinary r.id 1 4 15 (r.addr :: r.params), transBinary r.id 1 4 0 vs)
  | .rmwsum => if r.params.length = 1 then r.before.map fun vs => (transBinary r.id 1 5 15 (r.addr :: r.params), transBinary r.id 1 5 0 vs) else none

/-- Result of `gen_pkt_from_head`: request, response, transactions in the packet, remaining transactions. -/
structure Pkt where
  req : Bytes
  res : Bytes
  inside : List Trans
  rem : List Trans

/-- `gen_pkt_from_head/7`, 326-346. Transactions come to an end: no clause. -/
def pktFrom (target : Nat) : List Trans → Bytes → Bytes → List Trans → Option Pkt
  | [], _, _, _ => none
  | r :: l, req, res, inside =>
    match transSize r with
    | none => none
    | some (a, b) =>
      if req.length ≥ target ∨ res.length ≥ target ∨ req.length + a > maxPkt ∨ res.length + b > maxPkt then some ⟨req, res, inside.reverse, r :: l⟩
      else match genTrans r with
        | none => none
        | some (x, y) => pktFrom target l (req ++ x) (res ++ y) (r :: inside)

/-- `gen_pkt_from_head/4`, 323-324. -/
def pktFromHead (id target : Nat) (l : List Trans) : Option Pkt := pktFrom target l (pktHeader id) (pktHeader id) []

/-- `gen_status_request`, 466-467. -/
def statusRequest : Bytes := bin32 0x200000f1 ++ List.replicate 60 0

/-- `expected_status_response`, 469-474; `TARGET_MTU` 21, `TARGET_BUFFERSIZE` 23. -/
def expectedStatus (next : Nat) : Bytes :=
  [0x20, 0, 0, 0xf1] ++ bin32 2000 ++ bin32 5 ++ [0x20, next / 256 % 256, next % 256, 0xf0] ++ List.replicate 48 0

/-- The mask for the response to a status request, 139: the first four words. -/
def statusMask : Bytes := List.replicate 16 255 ++ List.replicate 48 0

/-- `binary_and`, 519-525: the sizes have to match. -/
def binaryAnd (a : Bytes) : Option Bytes → Option Bytes
  | none => some a
  | some m => if a.length = m.length then some (List.zipWith (· &&& ·) a m) else none

/-- The request to send a reply again, 155. -/
def resendRequest (id : Nat) : Bytes := bin32 (0x200000f2 + id * 2 ^ 8)

/-! ## The test -/

/-- How the test ends; `running`: not yet. -/
inductive Outcome
  | success
  | bad (req exp got : Bytes)
  | timeout (req exp : Bytes)
  | pingTimeout
  | crash
  | running
deriving DecidableEq

/-- The target at the address of the script, and `ping`: whether its output has six lines, 176-190. -/
structure World (τ : Type) where
  resp : τ → Bytes → Option Bytes × τ
  ping : τ → Bool × τ

/-- A datagram and what has been received. -/
abbrev Exch : Type := Bytes × Option Bytes

variable {τ : Type}

/-- `send_and_check_reply`, 483-516: how the test ends here (if it does), what has been received. -/
def sendCheck (w : World τ) (t : τ) (req exp : Bytes) (mask : Option Bytes) : Option Outcome × Option Bytes × τ :=
  let r := w.resp t req
  (match r.1 with
    | none => some (.timeout req exp)
    | some a => match binaryAnd a mask with
      | none => some .crash
      | some x => if x = exp then none else some (.bad req exp x), r.1, r.2)

/-- The members of `#state` that change, 34. -/
structure State where
  i : Nat
  next : Nat
  rem : List Trans

/-- The packet of an iteration, 130-137: its ID, and the packet. -/
def prepare (s : State) (g : Gen) : Option (Nat × Pkt × Gen) :=
  let u := uniform 2 g
  let pid := if u.1 = 1 then s.next else 0
  match topUp 400 400 s.rem u.2 with
  | none => none
  | some (l, g) =>
    let z := randInt 8 (340 * 4) g
    (pktFromHead pid z.1 l).map fun p => (pid, p, z.2)

/-- `NewExpdId`, 144-151. -/
def newExpected (pid next : Nat) : Nat := if pid = 0 then next else if next = 65535 then 1 else next + 1

/-- `test_loop`, 121-167 (the clause before it is never chosen: `totalnr` is `undefined`), at most `fuel` iterations. Result: the end, the datagrams, the target. -/
def testLoop (w : World τ) (iMax : Int) : Nat → State → Gen → τ → Outcome × List Exch × τ
  | 0, _, _, t => (.running, [], t)
  | fuel + 1, s, g, t =>
    match prepare s g with
    | none => (.crash, [], t)
    | some (pid, p, g) =>
      let a := sendCheck w t statusRequest (expectedStatus s.next) (some statusMask)
      match a.1 with
      | some o => (o, [(statusRequest, a.2.1)], a.2.2)
      | none =>
        if p.inside.any fun r => (regValuesAfter r).isNone then (.crash, [(statusRequest, a.2.1)], a.2.2)
        else
          let b := sendCheck w a.2.2 p.req p.res none
          match b.1 with
          | some o => (o, [(statusRequest, a.2.1), (p.req, b.2.1)], b.2.2)
          | none =>
            let c := sendCheck w b.2.2 (resendRequest pid) p.res none
            let log := [(statusRequest, a.2.1), (p.req, b.2.1), (resendRequest pid, c.2.1)]
            match c.1 with
            | some o => (o, log, c.2.2)
            | none =>
              let d := w.ping c.2.2
              if d.1 = false then (.pingTimeout, log, d.2)
              else if (s.i : Int) = iMax then (.success, log, d.2)
              else
                let q := testLoop w iMax fuel ⟨s.i + 1, newExpected pid s.next, p.rem⟩ g d.2
                (q.1, log ++ q.2.1, q.2.2)

/-- `main/1` with three arguments, 64-106: `halt(1)` if the packet ID is out of range. -/
def main (w : World τ) (first : Nat) (iterations : Int) (fuel : Nat) (g : Gen) (t : τ) : Option (Outcome × List Exch × τ) :=
  if 65535 < first then none else some (testLoop w iterations fuel ⟨1, first, []⟩ g t)

/-- The exit status: exceptions of the test are caught and reported, 79-105; `escript` makes 127 of others. -/
def exitStatus : Option Outcome → Option Nat
  | none => some 1
  | some .running => none
  | some .crash => some 127
  | some _ => some 0

end Verif.TgtTest
