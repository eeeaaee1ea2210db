import Verif.Model.HubApp
/-!
# Texts the ControlHub prints

Models the report of the statistics server as text (/repo/controlhub/src/ch_stats.erl:440-453, 495-541), addresses, time stamps and hexadecimal printouts
(ch_utils.erl:93-98, 120-122, 144-151, 181-212), and the script that asks a target for its status (/repo/controlhub/scripts/ipbus2_udp_status.escript).

Simplifications (all of them):
* A text is the list of its characters. Standard output takes everything.
* `calendar:now_to_universal_time` is left out: a moment is its date and time of day.
* Addresses are IPv4 (the listening socket is, ch_tcp_listener.erl:89); the clause `invalid_ip` of `ip_port_string` is left out.
* A binary is a list of bytes; `<<Int:32>>` is the number of four of them, the first one highest. Nibbles are the quotient and the remainder of a byte by 16.
* The tables in a report have their address (`ets:member` is true) unless they are the two of old processes.
* Of the script only what follows the parsing of the arguments is here. An attempt ends with the first message that matches, or none for a second.
-/

set_option autoImplicit false

namespace Verif.HubText
open Verif.HubApp

abbrev Text := List Char

/-- A literal text. -/
@[irreducible] def lit (s : String) : Text := s.toList

/-- `~w`, `~p` of a number that is not negative. -/
def dec (n : Nat) : Text := Nat.toDigits 10 n

/-- `~w`, `~p` of a number. -/
def decZ (z : Int) : Text := if z < 0 then '-' :: dec z.natAbs else dec z.natAbs

/-- The field width and the padding character of `io_lib:format`; what does not fit is replaced by asterisks. -/
def field (width : Nat) (pad : Char) (s : Text) : Text :=
  if s.length ≤ width then List.replicate (width - s.length) pad ++ s else List.replicate width '*'

/-- The end of a line, `~n`. -/
def nl : Text := ['\n']

/-- An IPv4 address and a port. -/
structure Place where
  ip1 : Nat
  ip2 : Nat
  ip3 : Nat
  ip4 : Nat
  port : Nat
deriving DecidableEq, Repr

/-- `ip_port_string`, ch_utils.erl:93-94; and `"~w.~w.~w.~w:~w"`, ch_stats.erl:525. -/
def ipPort (p : Place) : Text :=
  dec p.ip1 ++ ['.'] ++ dec p.ip2 ++ ['.'] ++ dec p.ip3 ++ ['.'] ++ dec p.ip4 ++ [':'] ++ dec p.port

/-- `ipv4_u32_addr_to_tuple` and `ip_port_string` of a number, ch_utils.erl:95-96, 162-166. -/
def ofU32 (ip port : Nat) : Place := ⟨ip / 2 ^ 24 % 256, ip / 2 ^ 16 % 256, ip / 2 ^ 8 % 256, ip % 256, port⟩

/-- A moment, `{{Yr,Month,Day}, {Hr,Min,Sec}}` and the microseconds. -/
structure Moment where
  year : Nat
  month : Nat
  day : Nat
  hour : Nat
  min : Nat
  sec : Nat
  micro : Nat
deriving DecidableEq, Repr

/-- `", since ~2w:~2..0w:~2..0w.~3..0w, ~2..0w-~2..0w-~4w UTC"`, ch_stats.erl:526-528. -/
def since (m : Moment) : Text :=
  lit ", since " ++ field 2 ' ' (dec m.hour) ++ [':'] ++ field 2 '0' (dec m.min) ++ [':'] ++ field 2 '0' (dec m.sec) ++ ['.'] ++
  field 3 '0' (dec (m.micro / 1000)) ++ lit ", " ++ field 2 '0' (dec m.day) ++ ['-'] ++ field 2 '0' (dec m.month) ++ ['-'] ++
  field 4 ' ' (dec m.year) ++ lit " UTC"

/-- `timestamp_string`, ch_utils.erl:120-122. -/
def timestamp (m : Moment) : Text :=
  field 2 '0' (dec m.day) ++ ['-'] ++ field 2 '0' (dec m.month) ++ ['-'] ++ field 2 '0' (decZ ((m.year : Int) - 2000)) ++ [' '] ++
  field 2 '0' (dec m.hour) ++ [':'] ++ field 2 '0' (dec m.min) ++ [':'] ++ field 2 '0' (dec m.sec) ++ ['.'] ++ field 6 '0' (dec m.micro)

/-- `stats_table_to_string` of a table of a transaction manager, ch_stats.erl:497-512. -/
def clientText (title : Text) (t : Table) : Text :=
  lit "  " ++ title ++ nl ++
  lit "           Requests received: " ++ dec (t .requestsIn) ++ lit " (of which " ++ dec (t .requestsMalformed) ++ lit " were malformed)" ++ nl ++
  lit "              Responses sent: " ++ dec (t .responsesSent) ++ nl

/-- `io_lib:format("@ ~s", …)`, ch_stats.erl:505. -/
def clientTitle (p : Place) : Text := lit "@ " ++ ipPort p

/-- `stats_table_to_string` of a table of a device client, ch_stats.erl:513-540. -/
def deviceText (title : Text) (t : Table) : Text :=
  nl ++ title ++ nl ++
  lit "              Packets Out: " ++ dec (t .udpSent) ++ nl ++
  lit "               Packets In: " ++ dec (t .udpRcvd) ++ nl ++
  lit "                 Timeouts: " ++ dec (t .timeoutNormal) ++ lit " in normal operation (of which " ++ dec (t .timeoutRecovered) ++
  lit " were recovered)" ++ nl ++
  lit "                             (" ++ dec (t .lostRequest) ++ lit " request packets got lost, " ++ dec (t .lostResponse) ++
  lit " reply packet)" ++ nl ++
  lit "           Other timeouts: " ++ dec (t .timeoutStatus) ++ lit " (status), " ++ dec (t .timeoutResend) ++ lit " (in resends)" ++ nl

/-- `"Board @ ~w.~w.~w.~w:~w, since …"`, ch_stats.erl:521-528. -/
def deviceTitle (p : Place × Moment) : Text := lit "Board @ " ++ ipPort p.1 ++ since p.2

/-- The first lines of a report, ch_stats.erl:441-447. -/
def heading (connections active peak : Int) : Text :=
  lit "Control Hub Stats Report" ++ nl ++ lit "------------------------" ++ nl ++ nl ++
  lit "CLIENT  All-time connections: " ++ decZ connections ++ nl ++
  lit "          Active connections: " ++ decZ active ++ lit " (peak: " ++ decZ peak ++ lit ")" ++ nl

/-- `report_to_string`, ch_stats.erl:440-453, of the numbers in a report, with the addresses of the clients and the addresses and starts of the devices. -/
def reportText (r : Report) (cs : List Place) (ds : List (Place × Moment)) : Text :=
  heading r.connections r.active r.peak ++
  (cs.zip r.clients).flatMap (fun c => clientText (clientTitle c.1) c.2) ++ clientText (lit "Old clients") r.oldClients ++
  (ds.zip r.devices).flatMap (fun d => deviceText (deviceTitle d.1) d.2) ++ deviceText (lit "Old UDP") r.oldDevices

/-- The report of a ControlHub. `who` are the addresses and the starts of its processes, which are in their tables. -/
def App.text (a : App) (who : Nat → Place × Moment) : Option Text :=
  a.report.map fun r => reportText r (a.clients.map fun i => (who i).1) (a.devices.map who)

/-- A hexadecimal digit of `~B`. -/
def upper (d : Nat) : Char := if d < 10 then Char.ofNat (48 + d) else Char.ofNat (55 + d)

/-- `hex_number_to_hex_letter`, ch_utils.erl:194-212. -/
def lower (d : Nat) : Char := if d < 10 then Char.ofNat (48 + d) else Char.ofNat (87 + d)

/-- `~N.16.0B` of a number that has at most N hexadecimal digits. -/
def hexN : Nat → Nat → Text
  | 0, _ => []
  | n + 1, v => hexN n (v / 16) ++ [upper (v % 16)]

/-- `[Int || <<Int:32>> <= Binary]`: what is left at the end is ignored. -/
def ints : List UInt8 → List Nat
  | a :: b :: c :: d :: r => (a.toNat * 2 ^ 24 + b.toNat * 2 ^ 16 + c.toNat * 2 ^ 8 + d.toNat) :: ints r
  | _ => []

/-- What stands behind a word of the status reply, ipbus2_udp_status.escript:67-84. -/
def remark (w idx : Nat) : Text :=
  if idx = 0 then lit "   < " ++ (if w = 0x200000f1 then lit "Packet header" else lit "ERROR: invalid packet header")
  else if idx = 1 then lit "   < MTU (" ++ dec w ++ lit " bytes)"
  else if idx = 2 then lit "   < Number of response buffers (i.e. max packets in flight)"
  else if idx = 3 then lit "   < Next expected control request header"
  else if 8 ≤ idx ∧ idx < 12 then lit "   < Received IPbus control packet header " ++ dec (idx - 8)
  else if 12 ≤ idx ∧ idx < 16 then lit "   < Outgoing IPbus control packet header " ++ dec (idx - 12)
  else []

/-- `analyse_status_response_word`, ipbus2_udp_status.escript:67-84. -/
def wordText (w idx : Nat) : Text := lit "    " ++ hexN 8 w ++ remark w idx ++ nl

/-- The `lists:foldl` over the words, ipbus2_udp_status.escript:57. -/
def wordsText : List Nat → Nat → Text
  | [], _ => []
  | w :: ws, idx => wordText w idx ++ wordsText ws (idx + 1)

/-- `analyse_status_response`, ipbus2_udp_status.escript:53-64. -/
def analyse (b : List UInt8) : Text :=
  if b.length = 64 then lit "Response (hex):" ++ nl ++ wordsText (ints b) 0
  else
    lit "ERROR: Status response has incorrect length, " ++ dec b.length ++ lit " bytes (should be 64 bytes)" ++ nl ++
    lit "  Packet contents (hex) ..." ++ nl ++ lit "    " ++ b.flatMap (fun x => hexN 2 x.toNat) ++ nl

/-- What an attempt receives: a reply from an address, or nothing in time. -/
abbrev Reply := Option (Place × List UInt8)

/-- What the script does. -/
inductive Act
  | print (t : Text)
  | send (b : List UInt8)
  | halt (code : Nat)
deriving DecidableEq, Repr

/-- `<<16#200000f1:32/big, 0:(15*32)>>`, ipbus2_udp_status.escript:41. -/
def statusRequest : List UInt8 := [0x20, 0x00, 0x00, 0xf1] ++ List.replicate 60 0

/-- `send_status_request/3`, ipbus2_udp_status.escript:37-49, with what its attempts receive. -/
def ask (host : Text) (port : Nat) : Nat → (Nat → Reply) → List Act
  | 0, _ => [.halt 1]
  | left + 1, r =>
    [.print (nl ++ lit "Sending IPbus 2.0 status request to " ++ host ++ [':'] ++ dec port ++ nl), .send statusRequest] ++
    match r (left + 1) with
    | some (p, b) =>
      [.print (lit "  Received response from IP " ++ dec p.ip1 ++ ['.'] ++ dec p.ip2 ++ ['.'] ++ dec p.ip3 ++ ['.'] ++ dec p.ip4 ++ nl), .print (analyse b)]
    | none => .print (lit "  ERROR: No response after " ++ dec 1000 ++ lit "ms" ++ nl) :: ask host port left r

/-- `send_status_request/2`, ipbus2_udp_status.escript:33-34. -/
def status (host : Text) (port : Nat) (r : Nat → Reply) : List Act := ask host port 5 r

/-- The letters of a byte, ch_utils.erl:181-186. -/
def letters (b : UInt8) : Text := [lower (b.toNat / 16), lower (b.toNat % 16)]

/-- `do_print_binary_as_hex`, ch_utils.erl:181-189; there is no clause for one to three bytes. -/
def printHex : List UInt8 → Option Text
  | [] => some []
  | a :: b :: c :: d :: r => (printHex r).map fun t => lit "    0x" ++ letters a ++ letters b ++ letters c ++ letters d ++ nl ++ t
  | _ => none

/-- `print_binary_as_hex`, ch_utils.erl:144-151. -/
def printBinary (b : List UInt8) : Option Text :=
  if b.length % 4 = 0 then printHex b
  else some (lit "    * Binary printout skipped! *\n    *   Does not contain an    *\n    *    integer number of     *\n    *      32-bit words!       *\n")

end Verif.HubText
