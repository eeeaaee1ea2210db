import Verif.Model.Uri
import Verif.Model.HubWire
/-!
# Clients from URIs

Model of the constructors of the clients, /repo/uhal/uhal/src/common: `UDP` (ProtocolUDP.cpp:58-93), `TCP` (ProtocolTCP.cpp:60-92), `ControlHub` with
`ExtractTargetID` (ProtocolControlHub.cpp:50-153), `PCIe` (ProtocolPCIe.cpp:314-378) and `Mmap` (ProtocolMmap.cpp:283-321), as called by
`ClientFactory::getClient` (ClientFactory.cpp:139).

Simplifications (all of them):
* Name resolution and the memory that is available are functions of `World`. A resolver that succeeds returns at least one endpoint; the first one of the
  resolver for IPv4 is what `udp4` gives. The endpoints for TCP are kept as they are.
* `size_t` has 64 bits, numbers are those of the classic locale, the host is little-endian.
* Opening a socket without address does not fail; logging, and what is not derived from the URI, is left out. The device files of the PCIe and mmap clients
  are opened later (`connect`).
* An exception that leaves the body of a constructor destroys the members that have been constructed. One of them is `mDispatchThread`, a `std::thread`
  that runs: its destructor calls `std::terminate`.
-/

set_option autoImplicit false

namespace Verif.Make
open Verif.Uri (Uri)

/-- An endpoint with an IPv4 address. -/
structure Ep where
  a : BitVec 8
  b : BitVec 8
  c : BitVec 8
  d : BitVec 8
  port : BitVec 16
deriving DecidableEq, Repr

/-- Name resolution, and whether a block of memory can be had. -/
structure World where
  /-- `udp::resolver::resolve(udp::v4(), host, service).begin()`; `none` if it throws -/
  udp4 : Str → Str → Option Ep
  /-- `tcp::resolver::resolve(host, service)`: texts of addresses, and ports; `none` if it throws -/
  tcp : Str → Str → Option (List (Str × Nat))
  /-- whether a vector of so many bytes can be allocated -/
  room : Nat → Bool

/-- Exceptions that leave a constructor. -/
inductive MExc
  /-- thrown by `getClient` itself -/
  | factory (e : Uri.Exc)
  /-- `boost::system::system_error` of a resolver -/
  | resolve
  /-- `XMLfileMissingRequiredParameters` -/
  | noTarget
  /-- `ParsingTargetURLfailed` -/
  | badTarget
  /-- `HostnameToIPlookupFailed` -/
  | lookup
  /-- `InvalidURI` -/
  | invalidUri
  /-- `PCIeInitialisationError` -/
  | pcie
  /-- `boost::bad_lexical_cast` -/
  | lexical
  /-- `std::length_error` or `std::bad_alloc` -/
  | memory
deriving DecidableEq, Repr

/-- What a constructor leaves: the values taken from the URI. -/
inductive Client
  | udp (v : Ver) (ep : Ep) (max mem : Nat)
  | tcp (v : Ver) (eps : List (Str × Nat)) (max : Nat)
  | hub (v : Ver) (eps : List (Str × Nat)) (max : Nat) (ip : W) (port : BitVec 16)
  | pcie (toFpga toHost : Str) (events : Option Str) (sleep inFlight packet : Nat) (workaround : Bool)
  | mmap (path : Str) (offset sleep inFlight packet : Nat)
  /-- a client that somebody else has registered -/
  | user (p : Str)
deriving DecidableEq, Repr

/-- Outcome of the construction. -/
inductive Made
  | ok (c : Client)
  | exc (e : MExc)
  /-- `std::terminate` -/
  | terminate
deriving DecidableEq, Repr

/-! ## Numbers -/

/-- `'0'` to `'9'`. -/
def isDigit (c : Char) : Bool := 48 ≤ c.toNat ∧ c.toNat ≤ 57

/-- The number with these digits. -/
def decVal (s : Str) : Nat := s.foldl (fun n c => 10 * n + (c.toNat - 48)) 0

/-- `lcast_ret_unsigned::convert` of Boost for `size_t`. -/
def digits64 (s : Str) : Option Nat := if s ≠ [] ∧ s.all isDigit = true ∧ decVal s < 2 ^ 64 then some (decVal s) else none

/-- `boost::lexical_cast<size_t>`; `none`: `bad_lexical_cast`. A minus sign is accepted, and the number negated. -/
def lexSize : Str → Option Nat
  | '-' :: r => (digits64 r).map fun v => (2 ^ 64 - v) % 2 ^ 64
  | '+' :: r => digits64 r
  | s => digits64 s

/-- The value of a hexadecimal digit. -/
def hexDig (c : Char) : Option Nat :=
  if 48 ≤ c.toNat ∧ c.toNat ≤ 57 then some (c.toNat - 48)
  else if 65 ≤ c.toNat ∧ c.toNat ≤ 70 then some (c.toNat - 55)
  else if 97 ≤ c.toNat ∧ c.toNat ≤ 102 then some (c.toNat - 87)
  else none

/-- The number with these hexadecimal digits. -/
def hexVal : Nat → Str → Option Nat
  | n, [] => some n
  | n, c :: r => (hexDig c).bind fun d => hexVal (16 * n + d) r

/-- `boost::lexical_cast<HexTo<size_t> >`, include/uhal/ProtocolMmap.hpp:116-125, of a text that begins with `0x` or `0X`: `std::istream` with `std::hex`, and
the whole text must be used. -/
def lexHex (s : Str) : Option Nat :=
  if s.drop 2 = [] then none else (hexVal 0 (s.drop 2)).bind fun n => if n < 2 ^ 64 then some n else none

/-- The value of `offset`, ProtocolMmap.cpp:304-305. -/
def lexOffset (s : Str) : Option Nat := if ['0', 'x'].isPrefixOf s ∨ ['0', 'X'].isPrefixOf s then lexHex s else lexSize s

/-! ## The target of a ControlHub client -/

/-- The address as text (`address_v4::to_string`). -/
def Ep.text (e : Ep) : Str :=
  (Nat.toDigits 10 e.a.toNat) ++ '.' :: (Nat.toDigits 10 e.b.toNat) ++ '.' :: (Nat.toDigits 10 e.c.toNat) ++ '.' :: (Nat.toDigits 10 e.d.toNat)

/-- `qi::uint_`: as many digits as there are; no digits, or a number that does not fit in 32 bits, is a failure. -/
def uintP (s : Str) : Option (Nat × Str) :=
  let s := Uri.skip s
  if s.takeWhile isDigit = [] ∨ 2 ^ 32 ≤ decVal (s.takeWhile isDigit) then none else some (decVal (s.takeWhile isDigit), s.dropWhile isDigit)

/-- The parser of the address, ProtocolControlHub.cpp:113-121. -/
def quad (s : Str) : Option (List Nat) := do
  let (a, r) ← uintP s
  let (b, r) ← uintP (← Uri.lit ['.'] r)
  let (c, r) ← uintP (← Uri.lit ['.'] r)
  let (d, _) ← uintP (← Uri.lit ['.'] r)
  return [a, b, c, d]

/-- The parser of the value of `target`, ProtocolControlHub.cpp:74-83: everything before the first colon, everything behind it; white space is dropped. -/
def hostPort (s : Str) : Option (Str × Str) :=
  match Uri.lit [':'] (Uri.many (Uri.at_ [':']) s).2 with
  | none => none
  | some r => some ((Uri.many (Uri.at_ [':']) s).1, (Uri.many (fun _ => false) r).1)

/-- `ExtractTargetID`, ProtocolControlHub.cpp:50-137: IP address and port in the order of the host. -/
def extractTarget (w : World) (u : Uri) : Except MExc (W × BitVec 16) :=
  match u.arguments.find? fun x => x.1 = "target".toList with
  | none => .error .noTarget
  | some x => match hostPort x.2 with
    | none => .error .badTarget
    | some hp => match w.udp4 hp.1 hp.2 with
      | none => .error .lookup
      | some ep => match quad ep.text with
        | some [a, b, c, d] =>
          .ok (BitVec.ofNat 32 a <<< 24 ||| BitVec.ofNat 32 b <<< 16 ||| BitVec.ofNat 32 c <<< 8 ||| BitVec.ofNat 32 d, ep.port)
        | _ => .error .badTarget

/-! ## The constructors -/

/-- The loop over the arguments in the constructor of `UDP`, ProtocolUDP.cpp:78-90. -/
def udpArgs : Nat → List (Str × Str) → Except MExc Nat
  | n, [] => .ok n
  | _, (k, v) :: r =>
    if k = "max_payload_size".toList then
      match lexSize v with
      | none => .error .invalidUri
      | some m => udpArgs m r
    else .error .invalidUri

/-- The same in the constructor of `TCP`, ProtocolTCP.cpp:81-91: other arguments are ignored. -/
def tcpArgs : Nat → List (Str × Str) → Except MExc Nat
  | n, [] => .ok n
  | n, (k, v) :: r =>
    if k = "max_payload_size".toList then
      match lexSize v with
      | none => .error .invalidUri
      | some m => tcpArgs m r
    else tcpArgs n r

/-- An exception while `mDispatchThread` runs. -/
def inBody : Except MExc Client → Made
  | .ok c => .ok c
  | .error _ => .terminate

/-- `UDP::UDP`, ProtocolUDP.cpp:58-93. -/
def makeUdp (w : World) (v : Ver) (u : Uri) : Made :=
  match w.udp4 u.hostname u.port with
  | none => .exc .resolve
  | some ep => inBody (match udpArgs 1400 u.arguments with
    | .error e => .error e
    | .ok n => if w.room ((n + 20) % 2 ^ 64) = true then .ok (.udp v ep n ((n + 20) % 2 ^ 64)) else .error .memory)

/-- `TCP::TCP`, ProtocolTCP.cpp:60-92, for a client without ControlHub. -/
def makeTcp (w : World) (v : Ver) (u : Uri) : Made :=
  match w.tcp u.hostname u.port with
  | none => .exc .resolve
  | some eps => inBody (match tcpArgs 1400 u.arguments with
    | .error e => .error e
    | .ok n => .ok (.tcp v eps n))

/-- `TCP< ControlHub < … > >`: first `ControlHub::ControlHub`, ProtocolControlHub.cpp:144-153, then `TCP::TCP`. -/
def makeHub (w : World) (v : Ver) (u : Uri) : Made :=
  match extractTarget w u with
  | .error e => .exc e
  | .ok t => match w.tcp u.hostname u.port with
    | none => .exc .resolve
    | some eps => inBody (match tcpArgs 1400 u.arguments with
      | .error e => .error e
      | .ok n => .ok (.hub v eps n (htonl t.1) (bswap16 t.2)))

/-- The members of a PCIe client that depend on the arguments. -/
structure PcieS where
  events : Option Str
  sleep : Nat
  inFlight : Nat
  packet : Nat
  workaround : Bool

/-- The loop over the arguments, ProtocolPCIe.cpp:346-377. -/
def pcieArgs : PcieS → List (Str × Str) → Except MExc PcieS
  | s, [] => .ok s
  | s, (k, v) :: r =>
    if k = "events".toList then
      if s.events.isSome then .error .pcie else pcieArgs { s with events := some v } r
    else if k = "sleep".toList then
      match lexSize v with
      | none => .error .lexical
      | some n => pcieArgs { s with sleep := n } r
    else if k = "max_in_flight".toList then
      match lexSize v with
      | none => .error .lexical
      | some n => pcieArgs { s with inFlight := n } r
    else if k = "max_packet_size".toList then
      match lexSize v with
      | none => .error .lexical
      | some n => pcieArgs { s with packet := n } r
    else if k = "xdma_7series_workaround".toList then pcieArgs { s with workaround := true } r
    else pcieArgs s r

/-- `PCIe::PCIe`, ProtocolPCIe.cpp:314-378. `find(",")` is the number of characters before the first comma. -/
def makePcie (u : Uri) : Made :=
  let h := u.hostname
  let i := (h.takeWhile fun c => c ≠ ',').length
  if i = h.length then .exc .pcie
  else if i = 0 ∨ i = h.length - 1 then .exc .pcie
  else match pcieArgs ⟨none, 50, 0, 0, false⟩ u.arguments with
    | .error e => .exc e
    | .ok s => .ok (.pcie (h.take i) (h.drop (i + 1)) s.events s.sleep s.inFlight s.packet s.workaround)

/-- The members of an mmap client that depend on the arguments. -/
structure MmapS where
  offset : Nat
  sleep : Nat
  inFlight : Nat
  packet : Nat

/-- The loop over the arguments, ProtocolMmap.cpp:298-320. -/
def mmapArgs : MmapS → List (Str × Str) → Except MExc MmapS
  | s, [] => .ok s
  | s, (k, v) :: r =>
    if k = "sleep".toList then
      match lexSize v with
      | none => .error .lexical
      | some n => mmapArgs { s with sleep := n } r
    else if k = "offset".toList then
      match lexOffset v with
      | none => .error .lexical
      | some n => mmapArgs { s with offset := n } r
    else if k = "max_in_flight".toList then
      match lexSize v with
      | none => .error .lexical
      | some n => mmapArgs { s with inFlight := n } r
    else if k = "max_packet_size".toList then
      match lexSize v with
      | none => .error .lexical
      | some n => mmapArgs { s with packet := n } r
    else mmapArgs s r

/-- `Mmap::Mmap`, ProtocolMmap.cpp:283-321. -/
def makeMmap (u : Uri) : Made :=
  match mmapArgs ⟨0, 50, 0, 0⟩ u.arguments with
  | .error e => .exc e
  | .ok s => .ok (.mmap u.hostname s.offset s.sleep s.inFlight s.packet)

/-- The creators that are registered, ClientFactory.cpp:71-83. -/
def make (w : World) (p : Str) (u : Uri) : Made :=
  if p = "ipbusudp-1.3".toList then makeUdp w .v1 u
  else if p = "ipbusudp-2.0".toList then makeUdp w .v2 u
  else if p = "ipbustcp-1.3".toList then makeTcp w .v1 u
  else if p = "ipbustcp-2.0".toList then makeTcp w .v2 u
  else if p = "chtcp-1.3".toList then makeHub w .v1 u
  else if p = "chtcp-2.0".toList then makeHub w .v2 u
  else if p = "ipbuspcie-2.0".toList then makePcie u
  else if p = "ipbusmmap-2.0".toList then makeMmap u
  else .ok (.user p)

/-- `getClient`, ClientFactory.cpp:96-140, with the constructor. -/
def client (w : World) (r : Uri.Registry) (enabled : List Str) (text : Str) : Made :=
  match Uri.getClient r enabled text with
  | .error e => .exc (.factory e)
  | .ok (p, u) => make w p u

/-- What the packet builder takes from a client: `getMaxSendSize` and `getMaxReplySize` return `mMaxPayloadSize` as `uint32_t`
(ProtocolUDP.cpp:149-160, ProtocolTCP.cpp:146-157). -/
def Client.cfg (wrapNeg : Bool) : Client → Option Cfg
  | .udp v _ n _ => some ⟨v, none, BitVec.ofNat 32 n, BitVec.ofNat 32 n, wrapNeg⟩
  | .tcp v _ n => some ⟨v, none, BitVec.ofNat 32 n, BitVec.ofNat 32 n, wrapNeg⟩
  | .hub v _ n ip port => some ⟨v, some (ip, port), BitVec.ofNat 32 n, BitVec.ofNat 32 n, wrapNeg⟩
  | _ => none

end Verif.Make
