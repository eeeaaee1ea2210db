import Verif.Model.Hub

/-!
The hardware emulator of the tests of the ControlHub,
controlhub/unittest/ch_unittest_common.erl:233-319.

A message is what the mailbox of the process can hold: a datagram on its socket with the
sender and the bytes, the atom `shutdown`, or anything else.  The patterns of the
`receive` do not depend on the state, so a message that is not taken when it is its turn
is never taken; going through the messages in order of arrival is therefore the selective
receive of Erlang.  Simplified: `gen_udp:send` does not fail, opening the socket succeeds.
-/

set_option autoImplicit false

namespace Verif.Emulator

abbrev Bytes := List UInt8

/-- Messages in the mailbox; `udp` is `{udp, Socket, IP, Port, Packet}` with IP and port as
one number (ch_unittest_common.erl:283, 292). -/
inductive Msg where
  | udp (sender : Nat) (data : Bytes)
  | shutdown
  | other
deriving DecidableEq, Repr

/-- `{Socket, NextId, LastResponse}`, ch_unittest_common.erl:290. -/
structure St where
  next : Nat
  last : Option Bytes
deriving DecidableEq, Repr

/-- What becomes of one message. -/
inductive Out where
  -- stays in the mailbox
  | left
  -- taken; the datagrams sent and the next state
  | taken (sent : List (Nat × Bytes)) (s : St)
  -- `case_clause`
  | crash
  -- the function returns `ok`
  | done
deriving DecidableEq, Repr

/-- `StatusResponse`, ch_unittest_common.erl:304-308. -/
def statusResponse (next : Nat) : Bytes :=
  [0x20, 0, 0, 0xf1] ++ [0, 0, 0, 0] ++ [0, 0, 0, 16] ++
  [0x20, UInt8.ofNat (next / 256), UInt8.ofNat (next % 256), 0xf0] ++ List.replicate 48 0

/-- A 16-bit field in the default byte order of Erlang. -/
def u16 (hi lo : UInt8) : Nat := hi.toNat * 256 + lo.toNat

/-- The inner `case` on the last response, ch_unittest_common.erl:313-318. -/
def resendOf (sender : Nat) (hi lo : UInt8) : Option Bytes → List (Nat × Bytes)
  | some (a :: b :: c :: d :: r) =>
    if a = 0x20 ∧ u16 b c = u16 hi lo ∧ d = 0xf0 then [(sender, a :: b :: c :: d :: r)] else []
  | _ => []

/-- One turn of the IPbus 2.0 loop, ch_unittest_common.erl:290-321. -/
def step2 (s : St) : Msg → Out
  | .udp sender (a :: b :: c :: d :: r) =>
    if a = 0x20 ∧ u16 b c = s.next ∧ d = 0xf0 then
      .taken [(sender, a :: b :: c :: d :: r)] ⟨Hub.incId s.next, some (a :: b :: c :: d :: r)⟩
    else if a = 0x20 ∧ u16 b c = 0 ∧ d = 0xf0 then
      .taken [(sender, a :: b :: c :: d :: r)] ⟨s.next, some (a :: b :: c :: d :: r)⟩
    else if a = 0x20 ∧ b = 0 ∧ c = 0 ∧ d = 0xf1 then
      .taken [(sender, statusResponse s.next)] s
    else if a = 0x20 ∧ d = 0xf2 then
      .taken (resendOf sender b c s.last) s
    else .crash
  | _ => .left

/-- One turn of the IPbus 1 loop, ch_unittest_common.erl:281-288. -/
def step1 (s : St) : Msg → Out
  | .udp sender data => .taken [(sender, data)] s
  | .shutdown => .done
  | .other => .left

/-- How the process stands after the messages. -/
inductive End where
  | waiting (s : St)
  | crashed
  | finished
deriving DecidableEq, Repr

/-- The loop over the messages in order of arrival: what was sent and how it stands. -/
def run (step : St → Msg → Out) : St → List Msg → List (Nat × Bytes) × End
  | s, [] => ([], .waiting s)
  | s, m :: ms =>
    match step s m with
    | .left => run step s ms
    | .taken sent s' => let r := run step s' ms; (sent ++ r.1, r.2)
    | .crash => ([], .crashed)
    | .done => ([], .finished)

/-- `device_emulator_init` for `{2, 0}`, ch_unittest_common.erl:257-258. -/
def emulator2 (ms : List Msg) : List (Nat × Bytes) × End := run step2 ⟨7645, none⟩ ms

/-- `device_emulator_init` for `{1, _}`, ch_unittest_common.erl:255-256; the loop has no
state, the one of the model is not used. -/
def emulator1 (ms : List Msg) : List (Nat × Bytes) × End := run step1 ⟨0, none⟩ ms

end Verif.Emulator
