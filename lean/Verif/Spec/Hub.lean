/-!
# What a client and a ControlHub say to each other

Independent of the model: the protocol between uHAL and the ControlHub as it appears on a connection, message by message.
-/

set_option autoImplicit false

namespace Verif.Spec.Hub

/-- A number in `k` bytes, most significant first. -/
def be (k x : Nat) : List Nat := (List.range k).reverse.map fun i => x / 256 ^ i % 256

/-- A packet that a message to the ControlHub can contain: whole words, and their number fits in sixteen bits. -/
def Whole (p : List Nat) : Prop := p.length % 4 = 0 ∧ p.length / 4 < 65536

/-- An IPbus 2.0 control packet: the four bytes of the packet header in one of the two byte orders. -/
def Control (p : List Nat) : Prop :=
  (p[0]? = some 0x20 ∧ p[3]? = some 0xf0) ∨ (p[0]? = some 0xf0 ∧ p[3]? = some 0x20)

/-- The message with some packets for the target with this IP address and port: for each of them the address, the port, the number of
words, the words. -/
def request (ip port : Nat) (ps : List (List Nat)) : List Nat :=
  ps.flatMap fun p => be 4 ip ++ be 2 port ++ be 2 (p.length / 4) ++ p

/-- The answer to one packet: an error code (0 for success) and the bytes that the target has answered. -/
structure Answer where
  code : Nat
  data : List Nat
deriving DecidableEq, Repr

/-- The message with some answers: for each of them the number of bytes that follow, address, port, code, data. -/
def reply (ip port : Nat) (rs : List Answer) : List Nat :=
  rs.flatMap fun r => be 4 (r.data.length + 8) ++ be 4 ip ++ be 2 port ++ be 2 r.code ++ r.data

end Verif.Spec.Hub
