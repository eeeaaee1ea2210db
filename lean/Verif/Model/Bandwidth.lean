import Verif.Model.Bits
/-!
# The bandwidth test

Model of /repo/controlhub/test/src/bandwidthTest.erl; line numbers refer to this file. Packets are lists of 32-bit words, all in big-endian order in the file.

Simplifications: the socket is open and `gen_udp:send` returns `ok`; of the messages only the number of those from the socket counts (nothing else is looked at, line 259); `arr` has for each turn the
number of those that arrive within the 5 s of line 262 (or before, in the same turn). Texts and rates are left out.
-/

set_option autoImplicit false

namespace Verif.Bandwidth

/-- `generateBlockWriteBinary`, lines 279-285; the first argument is the number of turns, `EndValue - CurrentValue` or 0. -/
def genN : Nat → List W → Nat → List W
  | 0, bin, _ => bin
  | n + 1, bin, cur => genN n (bin ++ [BitVec.ofNat 32 cur]) (cur + 1)

/-- `generateBlockWriteBinary`, lines 279-285. -/
def gen (bin : List W) (cur stop : Nat) : List W := genN (stop - cur) bin cur

/-- `ByteOrderTransactionOut`, lines 17, 40, 65, 117, 169, 198. -/
def bot : W := 0x100000f8#32

/-- `runTxTest`, lines 19-25. -/
def tx : List W := gen [bot, 0x10035e20#32, 0x00001000#32] 0 350

/-- `runRxTest`, lines 42-50. -/
def rx : List W := [bot, bot, bot, bot, bot, 0x10035e40#32, 0x00001000#32]

/-- `runJumboTxTest`, lines 67-101. -/
def jumboTx : List W :=
  gen (gen (gen (gen (gen [bot, 0x1003F420#32, 0x00001000#32] 0 500 ++ [0x1005F420#32, 0x000011F4#32]) 500 1000 ++ [0x1007F420#32, 0x000013E8#32]) 1000 1500 ++
    [0x1009F420#32, 0x000015DC#32]) 1500 2000 ++ [0x100AC820#32, 0x000017D0#32]) 2000 2200

/-- `runJumboTxTestNonIncr`, lines 119-153. -/
def jumboTxNi : List W :=
  gen (gen (gen (gen (gen [bot, 0x1003F448#32, 0x00000001#32] 0 500 ++ [0x1005F448#32, 0x00000001#32]) 500 1000 ++ [0x1007F448#32, 0x00000001#32]) 1000 1500 ++
    [0x1009F448#32, 0x00000001#32]) 1500 2000 ++ [0x100AC848#32, 0x00000001#32]) 2000 2200

/-- `runJumboRxTest`, lines 171-183. -/
def jumboRx : List W :=
  [bot, 0x1003F418#32, 0x00001000#32, 0x1005F418#32, 0x000011F4#32, 0x1007F418#32, 0x000013E8#32, 0x1009F418#32, 0x000015DC#32, 0x100AC818#32, 0x000017D0#32]

/-- `runJumboRxTestNonIncr`, lines 200-212. -/
def jumboRxNi : List W :=
  [bot, 0x1003F440#32, 0x00000001#32, 0x1005F440#32, 0x00000001#32, 0x1007F440#32, 0x00000001#32, 0x1009F440#32, 0x00000001#32, 0x100AC840#32, 0x00000001#32]

/-- Messages in the mailbox; ghosts: requests sent, messages taken. -/
structure St where
  box : Nat := 0
  sent : Nat := 0
  got : Nat := 0
deriving DecidableEq, Repr

/-- The results `ok` and `error`. -/
inductive Out
  | ok (s : St)
  | error (s : St)
deriving DecidableEq, Repr

/-- `sendReceiveLoop`, lines 254-276; first arguments: `IterationsLeft`, `TotalErrors`. Nothing arrives after the end of `arr`. -/
def loop : Nat → Nat → List Nat → St → Out
  | 0, errs, _, s => if errs < 10 then .ok s else .error s
  | left + 1, errs, arr, s =>
    if errs < 10 then
      match s.box + arr.headD 0 with
      | k + 1 => loop left errs arr.tail { box := k, sent := s.sent + 1, got := s.got + 1 }
      | 0 => loop left (errs + 1) arr.tail { box := 0, sent := s.sent + 1, got := s.got }
    else .error s

/-- `runTest`, lines 245-251. -/
def run (iterations : Nat) (arr : List Nat) : Out := loop iterations 0 arr {}

/-- `TotalPayloadKB`, line 230, in words: what is printed after `ok`. -/
def payload (iterations depth : Nat) : Nat := iterations * depth

end Verif.Bandwidth
