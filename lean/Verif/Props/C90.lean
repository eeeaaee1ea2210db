import Verif.Lemmas.HubTextHex
/-!
# C90: what the ControlHub prints can be read back

The text of a report of the statistics server says all the numbers of it, and of which client and board they are; `ip_port_string`, the texts of
`print_binary_as_hex` and the output of the status script determine what they are made from. The script asks at most five times.

False: `print_binary_as_hex` prints the same for all binaries that are not whole words, `timestamp_string` for all years from 2100 on, the report for moments of
the same millisecond; the script ends with status 0 whatever the reply is.
-/

set_option autoImplicit false

namespace Verif
open Verif.HubApp Verif.HubText Verif.Spec.HubText

/-- The numbers of a table of a transaction manager, and the words in front of them. -/
def Spec.HubText.clientLines : List (String × Key) :=
  [("Requests received: ", .requestsIn), (" (of which ", .requestsMalformed), ("Responses sent: ", .responsesSent)]

/-- The numbers of a table of a device client, and the words in front of them. -/
def Spec.HubText.deviceLines : List (String × Key) :=
  [("Packets Out: ", .udpSent), ("Packets In: ", .udpRcvd), ("Timeouts: ", .timeoutNormal), (" in normal operation (of which ", .timeoutRecovered),
   ("\n                             (", .lostRequest), (" request packets got lost, ", .lostResponse), ("Other timeouts: ", .timeoutStatus),
   (" (status), ", .timeoutResend)]

/-- A text determines the address and the port. -/
theorem C90_address (p q : HubText.Place) (h : ipPort p = ipPort q) : p = q := ipPort_inj h

/-- An address as a number is the four bytes of it, and two numbers are never shown alike. -/
theorem C90_address_number (ip ip' port port' : Nat) (hi : ip < 2 ^ 32) (hi' : ip' < 2 ^ 32) (h : ipPort (ofU32 ip port) = ipPort (ofU32 ip' port')) :
    ip = ip' ∧ port = port' := by
  have h := ipPort_inj h
  simp only [ofU32, HubText.Place.mk.injEq] at h
  exact ⟨by omega, h.2.2.2.2⟩

theorem zip_maps {α β γ δ : Type} (f : α → γ) (g : β → δ) : ∀ (l : List α) (m : List β), (l.map f).zip (m.map g) = (l.zip m).map fun p => (f p.1, g p.2)
  | [], _ => rfl
  | _ :: _, [] => rfl
  | a :: l, b :: m => by simp only [List.map_cons, List.zip_cons_cons, zip_maps f g l m]

/-- Reports of two ControlHubs, at any moment of any life, with the same text: the numbers are the same, and so are the addresses, the starts to the
millisecond, and the counters of every client and every board. -/
theorem C90_report_partial (a b : App) (who who' : Nat → HubText.Place × Moment) (hw : ∀ i ∈ a.devices, (who i).2.Ok) (hw' : ∀ i ∈ b.devices, (who' i).2.Ok)
    (t : Text) (ha : HubText.App.text a who = some t) (hb : HubText.App.text b who' = some t) :
    a.cumulative = b.cumulative ∧ a.active = b.active ∧ a.peak = b.peak ∧ clientKeys.map a.oldClients = clientKeys.map b.oldClients ∧
    deviceKeys.map a.oldDevices = deviceKeys.map b.oldDevices ∧
    ∃ ra rb, a.report = some ra ∧ b.report = some rb ∧
      ((a.clients.map fun i => (who i).1).zip (ra.clients.map fun t => clientKeys.map t)) =
        ((b.clients.map fun i => (who' i).1).zip (rb.clients.map fun t => clientKeys.map t)) ∧
      ((a.devices.map fun i => ((who i).1, (who i).2.milli)).zip (ra.devices.map fun t => deviceKeys.map t)) =
        ((b.devices.map fun i => ((who' i).1, (who' i).2.milli)).zip (rb.devices.map fun t => deviceKeys.map t)) := by
  unfold HubText.App.text at ha hb
  cases hra : a.report with
  | none => rw [hra] at ha; cases ha
  | some ra =>
    cases hrb : b.report with
    | none => rw [hrb] at hb; cases hb
    | some rb =>
      rw [hra] at ha; rw [hrb] at hb
      have ha := Option.some.inj ha
      have hb := Option.some.inj hb
      have ⟨h1, h2, h3, h4, h5, h6, h7⟩ := report_cut
        (fun d hd => by obtain ⟨i, hi, e⟩ := List.mem_map.1 hd; rw [← e]; exact hw i hi)
        (fun d hd => by obtain ⟨i, hi, e⟩ := List.mem_map.1 hd; rw [← e]; exact hw' i hi) (ha.trans hb.symm)
      have k : ∀ (x : App) (r : Report), x.report = some r →
          r.connections = x.cumulative ∧ r.active = x.active ∧ r.peak = x.peak ∧ r.oldClients = x.oldClients ∧ r.oldDevices = x.oldDevices := by
        intro x r hr
        unfold App.report at hr
        split at hr
        · cases hr; exact ⟨rfl, rfl, rfl, rfl, rfl⟩
        · cases hr
      obtain ⟨a1, a2, a3, a4, a5⟩ := k a ra hra
      obtain ⟨b1, b2, b3, b4, b5⟩ := k b rb hrb
      rw [a1, b1] at h1; rw [a2, b2] at h2; rw [a3, b3] at h3; rw [a4, b4] at h5; rw [a5, b5] at h7
      refine ⟨h1, h2, h3, h5, h7, ra, rb, rfl, rfl, ?_, ?_⟩
      · rw [zip_maps, zip_maps]; simpa only [List.zip_map_left, List.map_map, Function.comp_def, Prod.map, id_eq] using h4
      · rw [zip_maps, zip_maps]; simpa only [List.zip_map_left, List.map_map, Function.comp_def, Prod.map, id_eq] using h6

theorem shows_right {t x before : Text} {n : Nat} (h : Shows t before n) : Shows (x ++ t) before n := by
  obtain ⟨a, s, y, h1, h2⟩ := h
  exact ⟨x ++ a, s, y, by rw [h1]; simp only [List.append_assoc], h2⟩

theorem shows_here {before y l : Text} {n : Nat} (hl : Lit l) : Shows (before ++ (dec n ++ (l ++ y))) before n :=
  ⟨[], dec n, l ++ y, by simp only [List.append_assoc, List.nil_append], digits_dec n, lit_head hl⟩

/-- Every number of a transaction manager stands behind its words. -/
theorem C90_client_lines (title : Text) (t : Table) (bk : String × Key) (h : bk ∈ clientLines) : Shows (clientText title t) bk.1.toList (t bk.2) := by
  have e : clientText title t = (lit "  " ++ title ++ nl ++ lit "           ") ++ (lit "Requests received: " ++ (dec (t .requestsIn) ++ (lit " (of which " ++
      (dec (t .requestsMalformed) ++ (lit " were malformed)" ++ ((nl ++ lit "              ") ++ (lit "Responses sent: " ++ (dec (t .responsesSent) ++ (nl ++ []))))))))) := by
    have e1 : lit "           Requests received: " = lit "           " ++ lit "Requests received: " := by unfold lit; decide +kernel
    have e2 : lit "              Responses sent: " = lit "              " ++ lit "Responses sent: " := by unfold lit; decide +kernel
    unfold clientText
    rw [e1, e2]
    simp only [List.append_assoc, List.append_nil]
  have l : ∀ s : String, s.toList = lit s := fun s => by unfold lit; rfl
  rw [l]
  simp only [clientLines, List.mem_cons, List.not_mem_nil, or_false] at h
  rw [e]
  rcases h with h | h | h <;> subst h
  all_goals repeat (first | exact shows_here (by isLit) | apply shows_right)

/-- Every number of a device client stands behind its words. -/
theorem C90_device_lines (title : Text) (t : Table) (bk : String × Key) (h : bk ∈ deviceLines) : Shows (deviceText title t) bk.1.toList (t bk.2) := by
  have e1 : lit "              Packets Out: " = lit "              " ++ lit "Packets Out: " := by unfold lit; decide +kernel
  have e2 : lit "               Packets In: " = lit "               " ++ lit "Packets In: " := by unfold lit; decide +kernel
  have e3 : lit "                 Timeouts: " = lit "                 " ++ lit "Timeouts: " := by unfold lit; decide +kernel
  have e4 : nl ++ lit "                             (" = lit "\n                             (" := by unfold lit; decide +kernel
  have e5 : lit "           Other timeouts: " = lit "           " ++ lit "Other timeouts: " := by unfold lit; decide +kernel
  have e := Eq.refl (deviceText title t)
  conv at e => rhs; unfold deviceText; rw [e1, e2, e3, e5]
  simp only [List.append_assoc] at e
  have l : ∀ s : String, s.toList = lit s := fun s => by unfold lit; rfl
  rw [l]
  simp only [deviceLines, List.mem_cons, List.not_mem_nil, or_false] at h
  rw [show ∀ r, nl ++ (lit "                             (" ++ r) = lit "\n                             (" ++ r from fun r => by rw [← e4, List.append_assoc]] at e
  rw [e]
  rcases h with h | h | h | h | h | h | h | h <;> subst h
  all_goals repeat (first | exact shows_here (by isLit) | apply shows_right)

/-- The text for a reply of the right size has a line for each of its sixteen words, in order. -/
theorem C90_status_lines (b : List UInt8) (hb : b.length = 64) :
    ∃ ls : List Text, analyse b = "Response (hex):\n".toList ++ ls.flatten ∧ ls.length = 16 ∧
      (∀ (i w : Nat), WordAt b i w → ∃ l, ls[i]? = some l ∧ HexLine "    ".toList w l) ∧
      ∀ w, WordAt b 0 w →
        (ls[0]? = some ("    ".toList ++ hexN 8 w ++ "   < Packet header\n".toList) ↔ w = 0x200000f1) ∧
        (ls[0]? = some ("    ".toList ++ hexN 8 w ++ "   < ERROR: invalid packet header\n".toList) ↔ w ≠ 0x200000f1) := by
  have l : ∀ s : String, s.toList = lit s := fun s => by unfold lit; rfl
  refine ⟨lines (ints b) 0, ?_, ?_, ?_, ?_⟩
  · have e : "Response (hex):\n".toList = lit "Response (hex):" ++ nl := by unfold lit; decide +kernel
    rw [analyse, if_pos hb, lines_flatten, e]
  · rw [lines_length, ints_length 16 b hb]
  · intro i w h
    have hi := ints_word i b w h
    refine ⟨_, lines_get _ 0 i w hi, hexN 8 w, remark w (0 + i), ?_, hexN_length 8 w, hexN_digits 7 w (ints_lt b w (List.mem_of_getElem? hi)), remark_newline _ _⟩
    rw [l, wordText]; rfl
  · intro w h
    have hi := ints_word 0 b w h
    rw [lines_get _ 0 0 w hi, l]
    have e1 : "   < Packet header\n".toList = lit "   < " ++ lit "Packet header" ++ nl := by unfold lit; decide +kernel
    have e2 : "   < ERROR: invalid packet header\n".toList = lit "   < " ++ lit "ERROR: invalid packet header" ++ nl := by unfold lit; decide +kernel
    have ne : lit "Packet header" ≠ lit "ERROR: invalid packet header" := by unfold lit; decide +kernel
    rw [e1, e2, wordText, Nat.add_zero, remark, if_pos rfl]
    simp only [Option.some.injEq, List.append_assoc, List.append_cancel_left_eq, List.append_cancel_right_eq]
    by_cases hw : w = 0x200000f1
    · rw [if_pos hw]; simp [hw, ne]
    · rw [if_neg hw]; simp [hw, ne.symm]

/-- The text determines the reply, of whatever size it is. -/
theorem C90_status_reply (b b' : List UInt8) (h : analyse b = analyse b') : b = b' := analyse_inj h

/-- The packets the script sends. -/
def Spec.HubText.packets (l : List HubText.Act) : List (List UInt8) := l.filterMap fun | .send b => some b | _ => none

theorem ask_none (host : Text) (port : Nat) (r : Nat → Reply) : ∀ n, (∀ i, 1 ≤ i → i ≤ n → r i = none) →
    packets (ask host port n r) = List.replicate n statusRequest ∧ (ask host port n r).getLast? = some (.halt 1)
  | 0, _ => ⟨rfl, rfl⟩
  | n + 1, h => by
    have ⟨h1, h2⟩ := ask_none host port r n (fun i hi hn => h i hi (by omega))
    rw [ask, h (n + 1) (by omega) (by omega)]
    refine ⟨?_, ?_⟩
    · have : packets ([.print (nl ++ lit "Sending IPbus 2.0 status request to " ++ host ++ [':'] ++ dec port ++ nl), .send statusRequest] ++
          .print (lit "  ERROR: No response after " ++ dec 1000 ++ lit "ms" ++ nl) :: ask host port n r) = statusRequest :: packets (ask host port n r) := rfl
      exact this.trans (by rw [h1]; rfl)
    · cases hq : ask host port n r with
      | nil => rw [hq] at h2; cases h2
      | cons x xs => rw [hq] at h2; simpa using h2

theorem ask_some (host : Text) (port : Nat) (r : Nat → Reply) (p : HubText.Place) (b : List UInt8) (m : Nat) (hm : 1 ≤ m) (hr : r m = some (p, b)) :
    ∀ n, m ≤ n → (∀ i, m < i → i ≤ n → r i = none) →
    packets (ask host port n r) = List.replicate (n - m + 1) statusRequest ∧ (ask host port n r).getLast? = some (.print (analyse b)) ∧
      ∀ c, .halt c ∉ ask host port n r
  | 0, h, _ => by omega
  | n + 1, h, hn => by
    by_cases e : m = n + 1
    · subst e
      rw [ask, hr]
      refine ⟨?_, rfl, fun c hc => ?_⟩
      · rw [Nat.sub_self]; rfl
      · simp at hc
    · have ⟨h1, h2, h3⟩ := ask_some host port r p b m hm hr n (by omega) (fun i hi hn' => hn i hi (by omega))
      rw [ask, hn (n + 1) (by omega) (by omega)]
      refine ⟨?_, ?_, ?_⟩
      · have : packets ([.print (nl ++ lit "Sending IPbus 2.0 status request to " ++ host ++ [':'] ++ dec port ++ nl), .send statusRequest] ++
            .print (lit "  ERROR: No response after " ++ dec 1000 ++ lit "ms" ++ nl) :: ask host port n r) = statusRequest :: packets (ask host port n r) := rfl
        rw [show n + 1 - m + 1 = (n - m + 1) + 1 by omega]
        exact this.trans (by rw [h1]; rfl)
      · cases hq : ask host port n r with
        | nil => rw [hq] at h2; cases h2
        | cons x xs => rw [hq] at h2; simpa using h2
      · intro c hc
        have : HubText.Act.halt c ∈ ask host port n r := by simpa using hc
        exact h3 c this

/-- Without a reply the script asks five times and ends with status 1. -/
theorem C90_status_none (host : Text) (port : Nat) (r : Nat → Reply) (h : ∀ i, 1 ≤ i → i ≤ 5 → r i = none) :
    packets (status host port r) = List.replicate 5 statusRequest ∧ (status host port r).getLast? = some (.halt 1) := ask_none host port r 5 h

/-- With a reply to attempt `k` (of 1 to 5) and none before, it asks `k` times and shows that reply. -/
theorem C90_status_some (host : Text) (port : Nat) (r : Nat → Reply) (k : Nat) (hk : 1 ≤ k) (hk5 : k ≤ 5) (p : HubText.Place) (b : List UInt8)
    (hr : r (6 - k) = some (p, b)) (h : ∀ j, 1 ≤ j → j < k → r (6 - j) = none) :
    packets (status host port r) = List.replicate k statusRequest ∧ (status host port r).getLast? = some (.print (analyse b)) := by
  have ⟨h1, h2, _⟩ := ask_some host port r p b (6 - k) (by omega) hr 5 (by omega)
    (fun i hi hi5 => by have := h (6 - i) (by omega) (by omega); rwa [show 6 - (6 - i) = i by omega] at this)
  rw [show 5 - (6 - k) + 1 = k by omega] at h1
  exact ⟨h1, h2⟩

/-- A reply that is not a status reply is shown as an error, but the script does not end with an error. -/
theorem C90_violated_exit (host : Text) (port : Nat) : ∃ r : Nat → Reply,
    (∃ t, (status host port r).getLast? = some (.print ("ERROR: Status response has incorrect length, 0".toList ++ t))) ∧
    ∀ c, HubText.Act.halt c ∉ status host port r := by
  have h := ask_some host port (fun _ => some (⟨127, 0, 0, 1, port⟩, [])) ⟨127, 0, 0, 1, port⟩ [] 5 (by omega) rfl 5 (by omega) (fun i h1 h2 => by omega)
  refine ⟨fun _ => some (⟨127, 0, 0, 1, port⟩, []), ⟨lit " bytes (should be 64 bytes)" ++ (nl ++ (lit "  Packet contents (hex) ..." ++ (nl ++ (lit "    " ++ nl)))), ?_⟩, h.2.2⟩
  have e : "ERROR: Status response has incorrect length, 0".toList = lit "ERROR: Status response has incorrect length, " ++ dec 0 := by unfold lit; decide +kernel
  refine h.2.1.trans ?_
  rw [e, analyse, if_neg (by decide)]
  simp only [List.append_assoc, List.length_nil, List.flatMap_nil, List.nil_append]

/-- A binary of whole words is printed word by word, and two of them are never printed alike. -/
theorem C90_hex_partial (b : List UInt8) (n : Nat) (hb : b.length = 4 * n) :
    (∃ ls : List Text, printBinary b = some ls.flatten ∧ ls.length = n ∧ ∀ (i w : Nat), WordAt b i w → ∃ l, ls[i]? = some l ∧ HexLine "    0x".toList w l) ∧
    ∀ b', b'.length % 4 = 0 → printBinary b = printBinary b' → b = b' := by
  have l : ∀ s : String, s.toList = lit s := fun s => by unfold lit; rfl
  have h4 : b.length % 4 = 0 := by omega
  refine ⟨?_, ?_⟩
  · obtain ⟨ls, h1, h2, h3⟩ := printHex_words n b hb
    refine ⟨ls, by rw [printBinary, if_pos h4, h1], h2, fun i w h => ?_⟩
    rw [l]; exact h3 i w (ints_word i b w h)
  · intro b' hb' h
    rw [printBinary, printBinary, if_pos h4, if_pos hb'] at h
    exact printHex_inj n b b' hb h

/-- Binaries of other sizes are all printed alike. -/
theorem C90_violated_hex : ∃ b b' : List UInt8, b ≠ b' ∧ printBinary b = printBinary b' ∧ (printBinary b).isSome :=
  ⟨[1], [2, 3], by decide, by rw [printBinary, printBinary, if_neg (by decide), if_neg (by decide)], by rw [printBinary, if_neg (by decide)]; rfl⟩

/-- Time stamps of the years 2000 to 2099 say the moment, to the microsecond. -/
theorem C90_stamp_partial (m n : Moment) (hm : m.Ok) (hn : n.Ok) (hy : 2000 ≤ m.year ∧ m.year < 2100) (hy' : 2000 ≤ n.year ∧ n.year < 2100)
    (h : timestamp m = timestamp n) : m = n := by
  obtain ⟨m1, m2, m3, m4, m5, m6, m7⟩ := hm
  obtain ⟨n1, n2, n3, n4, n5, n6, n7⟩ := hn
  have e : ∀ y : Nat, 2000 ≤ y → decZ ((y : Int) - 2000) = dec (y - 2000) := by
    intro y hy; unfold decZ; rw [if_neg (by omega), show ((y : Int) - 2000).natAbs = y - 2000 by omega]
  unfold timestamp at h
  rw [e _ hy.1, e _ hy'.1] at h
  simp only [List.append_assoc] at h
  have ⟨h1, h⟩ := field_cut h (.inl rfl) (by decide) (by omega) (by omega)
  have ⟨h2, h⟩ := field_cut (List.append_cancel_left h) (.inl rfl) (by decide) (by omega) (by omega)
  have ⟨h3, h⟩ := field_cut (List.append_cancel_left h) (.inl rfl) (by decide) (by omega) (by omega)
  have ⟨h4, h⟩ := field_cut (List.append_cancel_left h) (.inl rfl) (by decide) (by omega) (by omega)
  have ⟨h5, h⟩ := field_cut (List.append_cancel_left h) (.inl rfl) (by decide) (by omega) (by omega)
  have ⟨h6, h⟩ := field_cut (List.append_cancel_left h) (.inl rfl) (by decide) (by omega) (by omega)
  have h7 := field_inj (.inl rfl) (by decide) (by omega) (by omega) (List.append_cancel_left h)
  have h3 : m.year = n.year := by omega
  cases m; cases n; simp_all

/-- From 2100 on the year is two asterisks. -/
theorem C90_violated_stamp : ∃ m n : Moment, m.Ok ∧ n.Ok ∧ m.year ≠ n.year ∧ timestamp m = timestamp n :=
  ⟨⟨2100, 1, 1, 0, 0, 0, 0⟩, ⟨2101, 1, 1, 0, 0, 0, 0⟩, (by constructor <;> decide +kernel),
    (by constructor <;> decide +kernel), by decide, by decide +kernel⟩

/-- Boards started in the same millisecond are shown alike. -/
theorem C90_violated_since : ∃ m n : Moment, m.Ok ∧ n.Ok ∧ m ≠ n ∧ since m = since n :=
  ⟨⟨2026, 1, 1, 0, 0, 0, 1⟩, ⟨2026, 1, 1, 0, 0, 0, 2⟩, (by constructor <;> decide +kernel),
    (by constructor <;> decide +kernel), by decide, rfl⟩

/-- A client at work, and a board with a lost packet. -/
def demoApp : App :=
  { App.init with
    procs := [⟨.manager, .running, .serving, TraMgr.TM.init, some ((Table.zero.add .requestsIn 12).add .responsesSent 11), 0, []⟩,
              ⟨.device, .running, .gone, TraMgr.TM.init, some (((Table.zero.add .udpSent 20).add .udpRcvd 19).add .timeoutNormal 1), 0, []⟩]
    active := 1, peak := 2, cumulative := 3, clients := [0], devices := [1], oldClients := Table.zero.add .requestsMalformed 1 }

def demoWho (i : Nat) : HubText.Place × Moment := (⟨192, 168, 0, i, 50001⟩, ⟨2026, 11, 17, 9, 5, 30, 42017⟩)

/-- The text of a report. -/
example : HubText.App.text demoApp demoWho = some ("Control Hub Stats Report\n------------------------\n\nCLIENT  All-time connections: 3\n          Active connections: 1 (peak: 2)\n".toList ++ "  @ 192.168.0.0:50001\n           Requests received: 12 (of which 0 were malformed)\n".toList ++
    "              Responses sent: 11\n  Old clients\n           Requests received: 0 (of which 1 were malformed)\n              Responses sent: 0\n".toList ++
    "\nBoard @ 192.168.0.1:50001, since  9:05:30.042, 17-11-2026 UTC\n              Packets Out: 20\n               Packets In: 19\n".toList ++
    "                 Timeouts: 1 in normal operation (of which 0 were recovered)\n                             (0 request packets got lost, 0 reply packet)\n".toList ++
    "           Other timeouts: 0 (status), 0 (in resends)\n\nOld UDP\n              Packets Out: 0\n               Packets In: 0\n".toList ++
    "                 Timeouts: 0 in normal operation (of which 0 were recovered)\n                             (0 request packets got lost, 0 reply packet)\n".toList ++
    "           Other timeouts: 0 (status), 0 (in resends)\n".toList) := by
  unfold HubText.App.text reportText heading deviceText clientText clientTitle deviceTitle since lit; decide +kernel

example : ∀ i ∈ demoApp.devices, (demoWho i).2.Ok := fun i _ => by constructor <;> simp [demoWho]

/-- A status reply. -/
example : ("Response (hex):\n    200000F1   < Packet header\n    000005DC   < MTU (1500 bytes)\n    00000000   < Number of response buffers".toList).isPrefixOf
    (analyse ([0x20, 0, 0, 0xf1, 0, 0, 5, 0xdc] ++ List.replicate 56 0)) = true := by
  unfold analyse wordsText wordText remark lit; decide +kernel

example : WordAt ([0x20, 0, 0, 0xf1, 0, 0, 5, 0xdc] ++ List.replicate 56 0) 1 1500 := ⟨0, 0, 5, 0xdc, by decide, by decide, by decide, by decide, by decide⟩

example : printBinary [0xde, 0xad, 0xbe, 0xef] = some "    0xdeadbeef\n".toList := by unfold printBinary printHex lit; decide +kernel

example : timestamp ⟨2026, 11, 17, 9, 5, 30, 42017⟩ = "17-11-26 09:05:30.042017".toList := by decide +kernel

end Verif
