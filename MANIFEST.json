{
 "claims": [
  {
   "property": "C01",
   "status": "proved",
   "theorems": [
    "Verif.C01_roundtrip",
    "Verif.C01_layout",
    "Verif.C01_injective",
    "Verif.C01_decode_iff",
    "Verif.C01_decode_refuses",
    "Verif.C01_cross_version",
    "Verif.C01_encode_refuses_iff",
    "Verif.C01_expected_v1_info"
   ],
   "note": "Both codecs on BitVec 32, all 32-bit words."
  },
  {
   "property": "C02",
   "status": "proved",
   "theorems": [
    "Verif.C02_lowest_bit",
    "Verif.C02_unique",
    "Verif.C02_no_loss",
    "Verif.C02_zero_mask",
    "Verif.C02_top_bit_mask"
   ],
   "note": "Every mask; undefined behaviour (zero mask, INT_MIN negation) is a distinct outcome."
  },
  {
   "property": "C03",
   "status": "proved",
   "theorems": [
    "Verif.C03_accept_iff",
    "Verif.C03_defined",
    "Verif.C03_effect",
    "Verif.C03_rejected",
    "Verif.C03_accepted"
   ],
   "note": "Acceptance condition on all values and masks, and the client call built on it: a rejected write changes nothing, an accepted one queues exactly one RMW transaction with the stated effect on the target register."
  },
  {
   "property": "C04",
   "status": "proved",
   "theorems": [
    "Verif.C04_roundtrip",
    "Verif.C04_disjoint"
   ],
   "note": "Every admissible mask, value and register content."
  },
  {
   "property": "C05",
   "status": "proved",
   "theorems": [
    "Verif.C05_block_write",
    "Verif.C05_payload"
   ],
   "note": "Every reachable client state, every block below 2^29 words, every legal configuration; all splits."
  },
  {
   "property": "C06",
   "status": "proved",
   "theorems": [
    "Verif.C06_tiles"
   ],
   "note": "Every reachable client state, size below 2^29, both modes; slices and requests read off the packets by the independent parser and slot assignment."
  },
  {
   "property": "C07",
   "status": "proved",
   "theorems": [
    "Verif.C07_dispatched",
    "Verif.C07_current",
    "Verif.C07_v1_reply_can_exceed"
   ],
   "note": "IPbus 2.0: exact bounds. IPbus 1.3: the reply bound is max + 20 bytes and the witness shows it is tight. Buffer overruns are the outcome ub, excluded by C45_defined."
  },
  {
   "property": "C08",
   "status": "proved",
   "theorems": [
    "Verif.C08_program",
    "Verif.C08_dispatch_empties",
    "Verif.C08_reachable"
   ],
   "note": "Independent parser Verif.Spec.parsePackets; every program, every failing/succeeding transport."
  },
  {
   "property": "C09",
   "status": "partial",
   "theorems": [
    "Verif.C09_epochs_partial",
    "Verif.C09_distinct_partial",
    "Verif.C09_ids_partial",
    "Verif.C09_unique_partial",
    "Verif.C09_gap"
   ],
   "note": "For all programs, with any number of failing calls, except (IPbus 1.3) those with configuration-space reads; C09_gap shows that there it is false: a refused configuration read consumes an id."
  },
  {
   "property": "C10",
   "status": "proved",
   "theorems": [
    "Verif.C10_min_length"
   ],
   "note": ""
  },
  {
   "property": "C11",
   "status": "proved",
   "theorems": [
    "Verif.C11_verdict",
    "Verif.C11_ok_iff",
    "Verif.C11_no_ub",
    "Verif.C11_local",
    "Verif.C11_tight_capacity",
    "Verif.C11_v1_echo"
   ],
   "note": "Every packet any program can produce, every memory content. Needs CapOK (IPbus 1.3: send buffer one word larger than the padded minimal packet; C11_tight_capacity shows it is needed) and, for IPbus 2.0, Roomy. C11_v1_echo: finding, the IPbus 1.3 success test ignores the reply flag."
  },
  {
   "property": "C12",
   "status": "partial",
   "theorems": [
    "Verif.C12_delivered_partial",
    "Verif.C12_full",
    "Verif.C12_short_reply_accepted",
    "Verif.C12_tcp_partial",
    "Verif.C12_tcp_junk",
    "Verif.C12_paged_partial",
    "Verif.C17_violated_paged"
   ],
   "note": "The property is false of the code: C12_short_reply_accepted is a concrete run in which a reply without the data is accepted. Proved: only data of the last transaction of a packet can be missing, missing words read as zero, and nothing is missing if replies are complete. C12_tcp_partial: the same over the TCP client, where the replies of a chunk are stored before any is validated (C12_tcp_junk: words of packets that are never validated stay in memory, not marked valid)."
  },
  {
   "property": "C13",
   "status": "proved",
   "theorems": [
    "Verif.C13_unobservable",
    "Verif.C13_after_failure",
    "Verif.C13_observable",
    "Verif.C13_forged",
    "Verif.C13_resized_too_early",
    "Verif.C15_valid_iff",
    "Verif.C15_failed_packet"
   ],
   "note": "User programs: client calls mixed with any calls on ValHeader/ValWord/ValVector (copies share the object), any target behaviour and interleaving of the generic transport. Objects the program itself marks valid with valid(true) are excluded (C13_forged shows why); resizing a vector whose reply is outstanding is undefined behaviour in the model (C13_resized_too_early)."
  },
  {
   "property": "C14",
   "status": "partial",
   "theorems": [
    "Verif.C14_partial",
    "Verif.C14_violated_assign",
    "Verif.C14_violated_mask",
    "Verif.C14_violated_flag",
    "Verif.C14_violated_clear",
    "Verif.C15_stays"
   ],
   "note": "Violated by the code: operator=, mask(uint32_t), valid(bool) and clear change what a valid object yields (four concrete programs). Proved for all programs that do not use these four calls on the object."
  },
  {
   "property": "C15",
   "status": "proved",
   "theorems": [
    "Verif.C15_valid_iff",
    "Verif.C15_complete",
    "Verif.C15_failed_packet",
    "Verif.C15_throws",
    "Verif.C15_stays",
    "Verif.C15_success",
    "Verif.C15_udp_valid_iff",
    "Verif.C15_udp_failed",
    "Verif.C15_tcp_valid_iff",
    "Verif.C15_tcp_failed",
    "Verif.C15_paged_valid_iff",
    "Verif.C15_paged_failed"
   ],
   "note": "Programs of calls over linkT: any reply contents and lengths, lost replies, any interleaving of replies with calls. Needs CapOK and, for IPbus 2.0, Roomy, as C11."
  },
  {
   "property": "C16",
   "status": "proved",
   "theorems": [
    "Verif.C16_refinement",
    "Verif.C16_dummy",
    "Verif.C16_udp",
    "Verif.C16_tcp",
    "Verif.C16_paged",
    "Verif.C16_paged_device",
    "Verif.C16_paged_dummy"
   ],
   "note": "C16_udp, C16_tcp: the same over the UDP and TCP clients, for every schedule of their callbacks and any number of packets per TCP chunk. C16_paged: over the PCIe and mmap clients, in terms of the words read from the pages; C16_paged_device, C16_paged_dummy: with the device and its pages in the model, for every interleaving of the steps of device and client (one client, no failed accesses, no interrupts). Over the generic asynchronous transport and every target that executes well-formed packets (Spec.Conforms); C16_dummy: DummyHardware, directly or behind a ControlHub. Argument checks are part of the sequential specification (refused calls). Hypotheses: packet sizes WF/CapOK/Roomy, blocks below 2^29 words, masks for which the shift is defined."
  },
  {
   "property": "C17",
   "status": "partial",
   "theorems": [
    "Verif.C17_fresh",
    "Verif.C17_clean",
    "Verif.C17_udp",
    "Verif.C17_tcp",
    "Verif.C17_paged",
    "Verif.C17_violated_paged"
   ],
   "note": "C17_udp, C17_tcp: UDP and TCP clients (exception handler run with nothing pending, for TCP also with no reply expected). C17_paged: PCIe and mmap clients, in terms of the words they read; but these can be the late answer to a packet of before the failure (C17_violated_paged). Packet builder over the generic asynchronous transport: after a call that failed, every continuation returns, sends, receives and leaves the same as on a new client, up to numbering of objects and packets, for every target behaviour and interleaving. Argument errors (forbidden bits, IPbus 1.3 configuration-space read) are not failures of a dispatch and are excluded. Missing: the handler runs at other moments too, and then the claim is false (C18, C22, C23)."
  },
  {
   "property": "C18",
   "status": "partial",
   "theorems": [
    "Verif.C18_order_partial",
    "Verif.C18_finished_partial",
    "Verif.C18_violated_null",
    "Verif.C18_violated_stale"
   ],
   "note": "Proved for every schedule of dispatches, exception handlings and callbacks (any result, timeouts) in which the exception handler does not run while an operation is pending or a callback is in progress. The handler takes no lock and does not wait for cancelled operations; C18_violated_* are schedules in which that breaks the claim (null dereference, a stale datagram taken as reply)."
  },
  {
   "property": "C19",
   "status": "partial",
   "theorems": [
    "Verif.C19_limit_partial",
    "Verif.C19_violated"
   ],
   "note": "Proved for the same schedules as C18; C19_violated: the handler runs between the last two locked sections of read_callback, the counter wraps and two IPbus 1.3 packets are in flight."
  },
  {
   "property": "C20",
   "status": "partial",
   "theorems": [
    "Verif.C20_complete_partial",
    "Verif.C20_wakes_partial",
    "Verif.C20_pending_partial",
    "Verif.C20_terminates_partial",
    "Verif.C20_stable_partial",
    "Verif.C20_violated_stale",
    "Verif.C18_violated_stale"
   ],
   "note": "Proved for the same schedules as C18, including a bound on the number of steps of the network thread while Flush waits. C20_violated_stale, C18_violated_stale: otherwise a stale completion fails a later packet, or Flush returns before the reply has come."
  },
  {
   "property": "C21",
   "status": "partial",
   "theorems": [
    "Verif.C21_order_partial",
    "Verif.C21_framing_partial",
    "Verif.C21_finished_partial",
    "Verif.C21_body",
    "Verif.C21_fits"
   ],
   "note": "Proved for every schedule of dispatches, flushes, exception handlings and callbacks (any result, timeouts), every chunk size n and limit N with n | N, in which the exception handler does not run while an operation is pending or with entries in mReplyQueue. Missing: schedules after such a handler run; there the claim is false (C23_violated_*)."
  },
  {
   "property": "C22",
   "status": "partial",
   "theorems": [
    "Verif.C22_limit_partial",
    "Verif.C22_complete_partial",
    "Verif.C22_wakes_partial",
    "Verif.C22_pending_partial",
    "Verif.C22_violated_limit",
    "Verif.C22_violated_stall"
   ],
   "note": "The limit is violated: Flush sends a chunk without checking it (C22_violated_limit, 17 packets instead of 16). Proved: at most N + n, and at most N while no Flush is in progress; completeness of Flush and absence of lost wake-ups for the schedules of C21. C22_violated_stall: no timeout while the body of a reply is outstanding."
  },
  {
   "property": "C23",
   "status": "partial",
   "theorems": [
    "Verif.C23_clean_partial",
    "Verif.C23_violated",
    "Verif.C23_violated_read",
    "Verif.C23_violated_two_reads",
    "Verif.C23_violated_spurious"
   ],
   "note": "Violated: entries of mReplyQueue survive the exception handler; consequences shown as concrete schedules. Proved: if mReplyQueue is empty and nothing pending when the handler runs, the client is as new."
  },
  {
   "property": "C24",
   "status": "proved",
   "theorems": [
    "Verif.C24_preamble"
   ],
   "note": "Assumes packets below 4*2^16 bytes (length field is 16 bits wide, counted in words)."
  },
  {
   "property": "C25",
   "status": "proved",
   "theorems": [
    "Verif.C25_wrong"
   ],
   "note": "All addresses, ports, codes. That the exception leaves the dispatch call is part of C15."
  },
  {
   "property": "C26",
   "status": "partial",
   "theorems": [
    "Verif.C26_reply_partial",
    "Verif.C26_served_partial",
    "Verif.C26_order_partial",
    "Verif.C26_no_overwrite_partial",
    "Verif.C26_request_kept_partial",
    "Verif.C26_violated_clip"
   ],
   "note": "Any number of PCIe (polling) and mmap clients on one device, any number of pages and page size below 2^16, any start page and counter (wrapping), any schedule with exceptions and crashes, except: interrupts, a session started while requests of an interrupted session are unprocessed (late), a session ended after the next has begun (raced), mmap with odd or clipped page sizes. In these cases the claim is false: C27_violated_*, C29_violated_*, C26_violated_clip."
  },
  {
   "property": "C27",
   "status": "partial",
   "theorems": [
    "Verif.C27_published_partial",
    "Verif.C27_progress_partial",
    "Verif.C27_violated_interrupt",
    "Verif.C27_violated_stale"
   ],
   "note": "Proved for the schedules of C26. Violated with interrupts (from the second packet on) and after an exception or crash with requests outstanding (a stale reply is accepted as valid data)."
  },
  {
   "property": "C28",
   "status": "proved",
   "theorems": [
    "Verif.C28_header",
    "Verif.C28_header_mod"
   ],
   "note": "All lengths 1..65536, by arithmetic; for every other length what is announced."
  },
  {
   "property": "C29",
   "status": "partial",
   "theorems": [
    "Verif.C29_exclusive",
    "Verif.C29_one_session",
    "Verif.C29_synchronised_partial",
    "Verif.C29_violated_race",
    "Verif.C29_violated_crash"
   ],
   "note": "C29_exclusive, C29_one_session: mutual exclusion, every schedule of any number of clients, crashes at any point. Re-synchronisation is violated in two situations (concrete schedules: C29_violated_race without any failure, C29_violated_crash) and proved in all others."
  },
  {
   "property": "C30",
   "status": "partial",
   "theorems": [
    "Verif.C30_page_partial",
    "Verif.C30_window_partial",
    "Verif.C30_pointer_partial",
    "Verif.C30_violated_neighbour",
    "Verif.C30_violated_word",
    "Verif.C30_violated_window",
    "Verif.C30_violated_wrap",
    "Verif.C30_violated_pointer"
   ],
   "note": "Violated: the word behind a packet with an odd number of words is cleared (also across the page boundary for odd page sizes), accesses can leave the mapping (unaligned offset, 32-bit wrap), and an access through (void*)-1 follows a failed mmap. Proved with the hypotheses that exclude these."
  },
  {
   "property": "C31",
   "status": "partial",
   "theorems": [
    "Verif.C31_pcie_partial",
    "Verif.C31_mmap_partial",
    "Verif.C31_violated_mmap"
   ],
   "note": "PCIe: every schedule. mmap clients use the number of pages as limit instead of the attribute: C31_violated_mmap."
  },
  {
   "property": "C32",
   "status": "partial",
   "theorems": [
    "Verif.C32_sound_partial",
    "Verif.C32_complete",
    "Verif.C32_sum_partial",
    "Verif.C32_inline",
    "Verif.C32_violated_or"
   ],
   "note": "The builder returns exactly the declared tree (soundness and completeness, any depth, with the file cache), addresses being sums along the path provided an included file's outermost address and the including address share no bit; they are combined by bitwise or, so otherwise the claim is false (C32_violated_or)."
  },
  {
   "property": "C33",
   "status": "partial",
   "theorems": [
    "Verif.C33_list",
    "Verif.C33_lookup",
    "Verif.C33_listed",
    "Verif.C33_distinct",
    "Verif.C33_has",
    "Verif.C33_found",
    "Verif.C33_built",
    "Verif.C33_violated_dup",
    "Verif.C33_violated_built"
   ],
   "note": "Listing and hasNode/getNode agreement for every tree; lookup exact for every tree with well-formed ids unique among siblings. With a repeated sibling id the claim is false (C33_violated_dup)."
  },
  {
   "property": "C34",
   "status": "partial",
   "theorems": [
    "Verif.C34_denied",
    "Verif.C34_permitted",
    "Verif.C34_read",
    "Verif.C34_write",
    "Verif.C34_inside_mask",
    "Verif.C34_program",
    "Verif.C34_violated_block",
    "Verif.C34_violated_block_read"
   ],
   "note": "Permissions enforced for every node, call and argument; node programs refine a sequential execution. Violated: block calls of one word on a bit-field ignore its mask."
  },
  {
   "property": "C35",
   "status": "partial",
   "theorems": [
    "Verif.C35_inside_partial",
    "Verif.C35_refused_partial",
    "Verif.C35_served",
    "Verif.C35_single",
    "Verif.C35_violated_wrap",
    "Verif.C35_violated_one"
   ],
   "note": "Proved for every size, offset and length for which the 32-bit sum in readBlockOffset does not wrap, and sizes other than 1 for calls without offset; both exceptions are real violations with witnesses."
  },
  {
   "property": "C36",
   "status": "partial",
   "theorems": [
    "Verif.C36_report_partial",
    "Verif.C36_violated_missing",
    "Verif.C36_violated_spurious"
   ],
   "note": "Sound, complete, each pair once, for every tree whose blocks are non-empty and do not pass 2^32. Both exceptions are real violations with witnesses."
  },
  {
   "property": "C37",
   "status": "partial",
   "theorems": [
    "Verif.C37_select",
    "Verif.C37_capacity",
    "Verif.C37_allNames",
    "Verif.C37_node",
    "Verif.C37_top",
    "Verif.C37_builder_parsers",
    "Verif.C37_violated_length_error"
   ],
   "note": "Complete characterisation of the parser for every rule set and attribute list (C37_select: one outcome each, in terms of the rules only), capacity exactly 64 names. One case violates the claim: an element without attributes that no rule accepts gives std::length_error instead of NoRulesPassed (C37_violated_length_error)."
  },
  {
   "property": "C38",
   "status": "proved",
   "theorems": [
    "Verif.C38_exact",
    "Verif.C38_incorrect",
    "Verif.C38_too_big"
   ],
   "note": "Every string; classical locale assumed for the stream extraction of up to ten digits."
  },
  {
   "property": "C39",
   "status": "partial",
   "theorems": [
    "Verif.Uri.C39_roundtrip_partial",
    "Verif.Uri.C39_reparse",
    "Verif.Uri.C39_client_partial",
    "Verif.Uri.C39_registered",
    "Verif.Uri.C39_built_in_partial",
    "Verif.Uri.C39_violated_path",
    "Verif.Uri.C39_violated_empty"
   ],
   "note": "Round trip for every URI in which path and extension come with a port, and for every URI that the parser returns; without port the path becomes part of the host name. Clients only for the protocol named, provided no client is registered under the empty name."
  },
  {
   "property": "C40",
   "status": "proved",
   "theorems": [
    "Verif.Conn.C40_accepts",
    "Verif.Conn.C40_throws",
    "Verif.Conn.C40_first",
    "Verif.Conn.C40_getDevice",
    "Verif.Conn.C40_getDevices",
    "Verif.Conn.C40_read_once",
    "Verif.Conn.C40_twice",
    "Verif.Conn.C40_defs",
    "Verif.Conn.C40_repeat",
    "Verif.Conn.C40_independent",
    "Verif.Conn.C40_separate",
    "Verif.Conn.C40_violated_relative"
   ],
   "note": "Proved with the address table taken as the text of the attribute. Two files in different directories may mean different tables by the same text; the second definition is then taken for a repetition (C40_violated_relative)."
  },
  {
   "property": "C41",
   "status": "partial",
   "theorems": [
    "Verif.C41_clone",
    "Verif.C41_lookup",
    "Verif.C41_unique",
    "Verif.C41_copy_of_copy",
    "Verif.C41_assign_partial",
    "Verif.C41_violated_assign",
    "Verif.C33_violated_dup"
   ],
   "note": "Copies of every tree carry the same attributes, listing and paths, and answer lookups alike (when equal sibling ids are in insertion order). Violated: Node::operator= does not copy the firmware info; with repeated ids a copy can find another node."
  },
  {
   "property": "C42",
   "status": "partial",
   "theorems": [
    "Verif.Hub.C42_once_partial",
    "Verif.Hub.C42_reply_partial",
    "Verif.Hub.C42_no_crash_partial",
    "Verif.Hub.C42_next_partial",
    "Verif.Hub.C42_recovery_partial",
    "Verif.Hub.C42_one_message",
    "Verif.Hub.C42_gives_up",
    "Verif.Hub.C42_violated_restart",
    "Verif.Hub.C42_violated_age"
   ],
   "note": "Proved for any loss, duplication, delay and reordering as long as no datagram outlives L accepted packets, with L + packets in flight + twice the number of reply buffers below 65535, and no datagrams of an earlier device client are in the network. Both restrictions are needed: an old request is executed and its reply forwarded to another client."
  },
  {
   "property": "C43",
   "status": "partial",
   "theorems": [
    "Verif.Stats.C43_partial",
    "Verif.Stats.C43_mean_partial",
    "Verif.Stats.C43_violated_clear",
    "Verif.Stats.C43_violated_mean",
    "Verif.Stats.C43_violated_init",
    "Verif.Stats.C43_violated_empty"
   ],
   "note": "Minimum, maximum, count and latest intervals are right for every sequence that clears after at most five measurements; the mean only if the uninitialised sum happens to be zero and nothing was cleared. Clearing after more than five measurements is undefined behaviour, the sum survives a clear, the constructor leaves it uninitialised, and the mean of no measurements divides by zero."
  },
  {
   "property": "C44",
   "status": "partial",
   "theorems": [
    "Verif.SigBus.C44_restored_partial",
    "Verif.SigBus.C44_protected_partial",
    "Verif.SigBus.C44_violated_unblocked",
    "Verif.SigBus.C44_violated_for_good",
    "Verif.SigBus.C44_violated_sigmask"
   ],
   "note": "Proved for any interleaving of threads whose guards are constructed with SIGBUS blocked and whose pthread_sigmask calls succeed. A constructor that throws leaves uHAL's handler and mask installed."
  },
  {
   "property": "C45",
   "status": "proved",
   "theorems": [
    "Verif.C45_defined"
   ],
   "note": "Undefined behaviour and non-termination are distinct outcomes of the model."
  },
  {
   "property": "C46",
   "status": "proved",
   "theorems": [
    "Verif.C46_reply_memory"
   ],
   "note": "Packets of every client program; max_payload_size + 20 must not wrap around 2^32."
  },
  {
   "property": "C47",
   "status": "proved",
   "theorems": [
    "Verif.C47_cache",
    "Verif.C47_history"
   ],
   "note": "Exact equality of trees and exceptions, for every coherent cache (the empty one, and all that calls lead to)."
  },
  {
   "property": "C48",
   "status": "partial",
   "theorems": [
    "Verif.C48_ends_partial",
    "Verif.C48_violated"
   ],
   "note": "Proved when no file includes itself; a file that includes itself is a violation: the recursion never ends."
  },
  {
   "property": "C49",
   "status": "partial",
   "theorems": [
    "Verif.Uri.C49_partial",
    "Verif.Uri.C49_violated_blank",
    "Verif.Uri.C49_violated_ends",
    "Verif.Uri.C49_violated_merged"
   ],
   "note": "Proved for names without white space and semicolons and protocols without colons. White space is lost, and some malformed lists do not throw."
  },
  {
   "property": "C50",
   "status": "partial",
   "theorems": [
    "Verif.TraMgr.C50_answers_partial",
    "Verif.TraMgr.C50_complete_partial",
    "Verif.TraMgr.C50_grouping",
    "Verif.TraMgr.C50_violated_two_targets",
    "Verif.TraMgr.C50_violated_switch",
    "Verif.TraMgr.C50_violated_short",
    "Verif.TraMgr.C50_violated_stuck",
    "Verif.TraMgr.C50_violated_blocked",
    "Verif.TraMgr.C50_violated_malformed_status"
   ],
   "note": "Proved for connections over which a client talks to one target with well-formed control packets (as uHAL does), with the network hypotheses of C42 and one device client. Messages for several targets, cut-off messages, blocked targets and malformed status replies get wrong, misplaced or no answers."
  },
  {
   "property": "C51",
   "status": "partial",
   "theorems": [
    "Verif.C51_request",
    "Verif.C51_reply",
    "Verif.C51_verdict",
    "Verif.C51_viaHub",
    "Verif.C51_end_partial",
    "Verif.C51_client"
   ],
   "note": "Requests, replies and verdicts for every program and all bytes. C51_end_partial (the whole path from client to target and back) inherits the network hypotheses of C42 and the one-target hypothesis of C50."
  },
  {
   "property": "C52",
   "status": "proved",
   "theorems": [
    "Verif.Registry.C52_one_per_target",
    "Verif.Registry.C52_right_target",
    "Verif.Registry.C52_answered",
    "Verif.Registry.C52_blocked",
    "Verif.Registry.C52_current",
    "Verif.Registry.C52_settled",
    "Verif.Registry.C52_violated_dead"
   ],
   "note": "As stated. C52_violated_dead shows a limit: a device client that is handed out may have ended without the registry having noticed."
  },
  {
   "property": "C53",
   "status": "partial",
   "theorems": [
    "Verif.Allow.C53_sound",
    "Verif.Allow.C53_last",
    "Verif.Allow.C53_partial",
    "Verif.Allow.C53_enforced",
    "Verif.Allow.C53_permissive",
    "Verif.Allow.C53_violated_ports",
    "Verif.Allow.C53_violated_blank",
    "Verif.Allow.C53_violated_remark",
    "Verif.Allow.C53_violated_crash",
    "Verif.Allow.C53_violated_tab"
   ],
   "note": "Only listed devices are allowed, for every file. That all listed devices are allowed is proved for files that list no IP address twice and false otherwise (C53_violated_ports)."
  },
  {
   "property": "C54",
   "status": "partial",
   "theorems": [
    "Verif.NodeAttr.C54_parameters_exact",
    "Verif.NodeAttr.C54_parameters_partial",
    "Verif.NodeAttr.C54_fwinfo_exact",
    "Verif.NodeAttr.C54_tree",
    "Verif.NodeAttr.C54_included",
    "Verif.NodeAttr.C54_refused",
    "Verif.NodeAttr.C54_violated_parameters",
    "Verif.NodeAttr.C54_violated_fwinfo"
   ],
   "note": "What is stored is characterised exactly for every text and every set of files. That texts of another form are refused is false: they are cut off silently (C54_violated_*)."
  },
  {
   "property": "C55",
   "status": "partial",
   "theorems": [
    "Verif.Hub.C55_version",
    "Verif.Hub.C55_one_answer",
    "Verif.Hub.C55_ended_partial",
    "Verif.Hub.C55_gives_up",
    "Verif.Hub.C55_errors",
    "Verif.Hub.C55_once_partial",
    "Verif.Hub.C55_reply_partial",
    "Verif.Hub.C55_no_error_partial",
    "Verif.Hub.C55_violated_first",
    "Verif.Hub.C55_violated_late",
    "Verif.Hub.C55_violated_no_buffers"
   ],
   "note": "Accounting for every request while the process runs and when it ends by giving up; at most 36 timeouts. C55_errors lists all ways in which it fails instead, after which requests are not answered. C55_once_partial and C55_reply_partial have the network hypotheses of C42."
  },
  {
   "property": "C56",
   "status": "partial",
   "theorems": [
    "Verif.Hub.C56_partial",
    "Verif.Hub.C56_order_partial",
    "Verif.Hub.C56_violated_duplicate",
    "Verif.Hub.C56_violated_twice"
   ],
   "note": "Proved for networks that deliver no request twice and no datagram after the next request has been sent, and fresh at the start. Without either hypothesis it is false."
  },
  {
   "property": "C57",
   "status": "partial",
   "theorems": [
    "Verif.C57_serial",
    "Verif.C57_one",
    "Verif.C57_order",
    "Verif.C57_steps",
    "Verif.C57_progress",
    "Verif.C57_complete",
    "Verif.C57_no_deadlock",
    "Verif.C57_refinement",
    "Verif.C57_success_partial",
    "Verif.C57_no_lost_update",
    "Verif.C57_udp",
    "Verif.C57_tcp",
    "Verif.C57_paged_device",
    "Verif.C57_violated_lost"
   ],
   "note": "Order, progress and values are proved in full. That a dispatch which returns has delivered what its thread asked for is false when another thread's call failed in between; proved when no call of any thread threw."
  },
  {
   "property": "C58",
   "status": "partial",
   "theorems": [
    "Verif.C58_matching_partial",
    "Verif.C58_text_partial",
    "Verif.C58_violated_top",
    "Verif.C58_violated_root",
    "Verif.C58_violated_copy"
   ],
   "note": "The nodes found are right unless a block reaches the end of the address space; the text is right unless the root itself matches. In both cases the code is wrong. The text is empty after a copy of the device object has come and gone."
  },
  {
   "property": "C59",
   "status": "partial",
   "theorems": [
    "Verif.C59_partial",
    "Verif.C59_copies",
    "Verif.C59_possible",
    "Verif.C59_violated_temporary",
    "Verif.C59_violated_other"
   ],
   "note": "Proved for all histories without assignments, and for those in which no object that has been assigned from is later destroyed or assigned to. For others it is false."
  },
  {
   "property": "C60",
   "status": "partial",
   "theorems": [
    "Verif.C60_partial",
    "Verif.C60_udp_partial",
    "Verif.C60_tcp_partial",
    "Verif.C60_paged_partial"
   ],
   "note": "For address files whose addresses add without carries where they are combined with or, and programs without the calls on which uhal is known to deviate from the table (block calls on registers declared without mode or with a mask, several words from a block of one word, offset plus size beyond 32 bits, mask 0). For others it is false: C32_violated_or, C34_violated_block, C35_violated_wrap, C35_violated_one."
  },
  {
   "property": "C61",
   "status": "partial",
   "theorems": [
    "Verif.C61_partial",
    "Verif.C61_slaves",
    "Verif.C61_ranges",
    "Verif.C61_content_partial",
    "Verif.C61_nested_partial",
    "Verif.C61_covered",
    "Verif.C61_accepts_partial",
    "Verif.C61_violated_nested",
    "Verif.C61_violated_width",
    "Verif.C61_violated_names",
    "Verif.C61_violated_wrap"
   ],
   "note": "Slaves, numbers, ranges and coverage hold without exception. Words of nodes: not for nodes whose address wraps around (C61_violated_wrap), and for endpoints in endpoints only if the last one is the one that ends last (C61_violated_nested: the words of an endpoint select no slave). Two endpoints can get the same name (C61_violated_names). Acceptance is proved for tables without endpoints in endpoints; with them a table that needs exactly 29 bits is refused (C61_violated_width)."
  },
  {
   "property": "C62",
   "status": "partial",
   "theorems": [
    "Verif.C62_shared_partial",
    "Verif.C62_unseen_partial",
    "Verif.C62_alone_partial",
    "Verif.C62_registers_partial"
   ],
   "note": "Client, TCP, ControlHub, network and target in one statement, connected by the bytes on the socket. IPbus 2.0; the hypotheses of C42 about late datagrams (without them it is false, C42) and one device client for the whole run."
  },
  {
   "property": "C63",
   "status": "partial",
   "theorems": [
    "Verif.C63_right_reply",
    "Verif.C63_once_partial",
    "Verif.C63_fifo",
    "Verif.C63_violated_duplicate",
    "Verif.C63_violated_reorder"
   ],
   "note": "The right reply: for every network, as long as fewer transactions than there are ids lie between a request and the reply taken for it. Executed once and in order: for networks that do not duplicate requests and do not reorder in one of the two directions. Otherwise it is false: a duplicated request is executed twice, and requests that change places are executed in the wrong order, without a failed call (packet id 0)."
  },
  {
   "property": "C64",
   "status": "partial",
   "theorems": [
    "Verif.C64_partial",
    "Verif.C64_append_iff",
    "Verif.C64_violated_overflow",
    "Verif.C64_violated_look"
   ],
   "note": "For texts of less than 65536 characters, without self-assignment, and with what() on an exception without text only after the last append. Otherwise false: append writes one byte behind the block (C64_append_iff says exactly when; the message for an unknown node with a long id does it), and what() leaves its answer in the text."
  },
  {
   "property": "C65",
   "status": "partial",
   "theorems": [
    "Verif.Fmt.C65_bin",
    "Verif.Fmt.C65_hex",
    "Verif.Fmt.C65_dec",
    "Verif.Fmt.C65_read_back",
    "Verif.Fmt.C65_code_partial",
    "Verif.Fmt.C65_violated_code"
   ],
   "note": "The three formats are proved for all types, values and widths below 2^31. The response code in the message of IPbusCoreResponseCodeSet is announced as hexadecimal and written in decimal; it is right exactly for codes below ten."
  },
  {
   "property": "C66",
   "status": "partial",
   "theorems": [
    "Verif.Log.C66_whole",
    "Verif.Log.C66_fixed",
    "Verif.Log.C66_levels",
    "Verif.Log.C66_order",
    "Verif.Log.C66_progress",
    "Verif.Log.C66_violated_torn"
   ],
   "note": "Whole messages, order and progress hold for all programs and schedules; the levels for one thread that changes them, and for several threads that do not. If one thread changes the level while another writes, it is false: the flags are changed one after the other without the mutex."
  },
  {
   "property": "C67",
   "status": "partial",
   "theorems": [
    "Verif.Make.C67_udp_partial",
    "Verif.Make.C67_tcp_partial",
    "Verif.Make.C67_hub_partial",
    "Verif.Make.C67_numeric_target",
    "Verif.Make.C67_message",
    "Verif.Make.C67_protocol",
    "Verif.Make.C67_pcie_partial",
    "Verif.Make.C67_mmap_partial",
    "Verif.Make.C67_text_partial",
    "Verif.Make.C67_memory_partial",
    "Verif.Make.C67_paged_reported",
    "Verif.Make.C67_violated_terminate",
    "Verif.Make.C67_violated_terminate_text",
    "Verif.Make.C67_violated_ignored",
    "Verif.Make.C67_violated_negative",
    "Verif.Make.C67_violated_zero"
   ],
   "note": "Exactly when a client is made and with what, for arguments without minus signs; the bytes of the target for every IPv4 address and port and every program. False otherwise: in the UDP, TCP and ControlHub clients an argument that is not accepted ends the process (the exception leaves the constructor while its thread runs), negative values and zero are accepted as maximum, and TCP ignores arguments that it does not know."
  },
  {
   "property": "C68",
   "status": "partial",
   "theorems": [
    "Verif.HubApp.C68_acceptor",
    "Verif.HubApp.C68_connections",
    "Verif.HubApp.C68_active",
    "Verif.HubApp.C68_active_partial",
    "Verif.HubApp.C68_peak",
    "Verif.HubApp.C68_report",
    "Verif.HubApp.C68_listed",
    "Verif.HubApp.C68_totals",
    "Verif.HubApp.C68_packets",
    "Verif.HubApp.C68_malformed",
    "Verif.HubApp.C68_orphans",
    "Verif.HubApp.C68_violated_active",
    "Verif.HubApp.C68_violated_orphans"
   ],
   "note": "All clauses are proved; the number of active clients under the stated proviso. Without it the clause is false: a transaction manager that crashes, or whose socket process cannot send, never reports the end of its client (C68_violated_active). A socket process is left over after every failed accept (C68_violated_orphans). The numbers of the report are modelled, not its text."
  },
  {
   "property": "C69",
   "status": "partial",
   "theorems": [
    "Verif.C69_device_partial",
    "Verif.C69_found_partial",
    "Verif.C69_unknown",
    "Verif.C69_order",
    "Verif.C69_hub_partial",
    "Verif.C69_hub13_partial",
    "Verif.C69_udp_partial",
    "Verif.C69_tcp_partial",
    "Verif.C69_paged_partial",
    "Verif.C69_pcie_target_partial"
   ],
   "note": "Proved from the text of the files' entries down to the word accesses of the target. Partial because the parts are: URIs as for C39 and C67 (violations there), address tables without carries in sums of addresses (C32), and the networks as for C42 and C63. Through the ControlHub: numeric targets; for IPbus 1.3 in time as for C56. Over PCIe and mmap: the client is alone with the device, and does not wait for interrupts."
  },
  {
   "property": "C70",
   "status": "partial",
   "theorems": [
    "Verif.Insp.C70_host",
    "Verif.Insp.C70_program",
    "Verif.Insp.C70_target_partial",
    "Verif.Insp.C70_dummy_partial",
    "Verif.Insp.C70_ends",
    "Verif.Insp.C70_sound_partial",
    "Verif.Insp.C70_other",
    "Verif.Insp.C70_violated_lenient",
    "Verif.Insp.C70_violated_config",
    "Verif.Insp.C70_violated_short",
    "Verif.Insp.C70_violated_header"
   ],
   "note": "Requests: proved for all well-formed packets, in particular all packets of clients. Replies: without reads of the configuration space, which the inspector does not know, and with data as announced by the word count. Conversely, what is shown without complaint is there, up to two bits of leniency. Malformed packets: analyze terminates, but reads behind the end (witnesses)."
  },
  {
   "property": "C71",
   "status": "partial",
   "theorems": [
    "Verif.Dummy.C71_udp_partial",
    "Verif.Dummy.C71_v13_partial",
    "Verif.Dummy.C71_tcp_partial",
    "Verif.Dummy.C71_hub_partial",
    "Verif.Dummy.C71_hub_first_partial",
    "Verif.Dummy.C71_violated_first",
    "Verif.Dummy.C71_violated_stale",
    "Verif.Dummy.C71_violated_zero",
    "Verif.Dummy.C71_violated_config",
    "Verif.Dummy.C71_violated_tcp"
   ],
   "note": "Proved for every sequence of well-formed packets (IPbus 2.0 over UDP with status and resend requests, in both byte orders; IPbus 1.3 over UDP; both over TCP, packet by packet), and behind the ControlHub of C42 over an unreliable network. For other packets it is false: the first packet may make an uninitialised member decide, malformed packets are answered with headers of earlier ones, a configuration space read behind the ten words ends the program, and over TCP ignored packets evict kept replies."
  },
  {
   "property": "C72",
   "status": "partial",
   "theorems": [
    "Verif.Files.C72_read",
    "Verif.Files.C72_http_partial",
    "Verif.Files.C72_trim",
    "Verif.Files.C72_sound",
    "Verif.Files.C72_local_partial",
    "Verif.Files.C72_local_sound",
    "Verif.Files.C72_other",
    "Verif.Files.C72_list",
    "Verif.Files.C72_violated_reason",
    "Verif.Files.C72_violated_headers",
    "Verif.Files.C72_violated_short",
    "Verif.Files.C72_violated_blank",
    "Verif.Files.C72_violated_status",
    "Verif.Files.C72_violated_host",
    "Verif.Files.C72_violated_local"
   ],
   "note": "Proved: the read loop for all streams; complete responses with a reason phrase and a header, whose body does not begin with white space (which is dropped); what is delivered is the end of a complete stream that begins with HTTP/ and has status 200; local files that are not empty; lists; other protocols. False otherwise, with a witness each: no reason phrase or no header (the body is lost), cut off pages accepted, uninitialised status, unknown hosts, wordexp errors and empty files."
  },
  {
   "property": "C73",
   "status": "partial",
   "theorems": [
    "Verif.Hub13.C73_answers_partial",
    "Verif.Hub13.C73_shared_partial",
    "Verif.Hub13.C73_unseen_partial",
    "Verif.Hub13.C73_alone_partial",
    "Verif.C51_client",
    "Verif.Hub13.C73_violated_duplicate"
   ],
   "note": "Proved end to end, from the calls of the user to the words of the target, for networks between ControlHub and target that deliver no request twice and no datagram after the next request has been sent (as C56). Without this it is false: if a reply arrives twice, the program of another client succeeds with the value of a register that it did not read (C73_violated_duplicate)."
  },
  {
   "property": "C74",
   "status": "partial",
   "theorems": [
    "Verif.HubProc.C74_goes_on",
    "Verif.HubProc.C74_refines",
    "Verif.HubProc.C74_one_answer_partial",
    "Verif.HubProc.C74_never_stuck",
    "Verif.HubProc.C74_two_partial",
    "Verif.HubProc.C74_one_partial",
    "Verif.HubProc.C74_violated_idle",
    "Verif.HubProc.C74_violated_send"
   ],
   "note": "The device client never gets stuck, whatever is in its mailbox (C74_never_stuck). A simulation of the two processes with their mailboxes by the model of C55 and C56, for all interleavings; the theorems of C55 and C56 follow. Partial because of what they assume of the network, and because two clauses are false: a datagram from anywhere before the first request ends the device client without an answer (C74_violated_idle), and so does an error of gen_udp:send, for example for a packet that is too long for a datagram (C74_violated_send)."
  },
  {
   "property": "C75",
   "status": "partial",
   "theorems": [
    "Verif.PcieDummy.C75_replies_partial",
    "Verif.PcieDummy.C75_progress_partial",
    "Verif.PcieDummy.C75_program",
    "Verif.PcieDummy.C75_violated_config",
    "Verif.PcieDummy.C75_violated_id",
    "Verif.PcieDummy.C75_violated_reply"
   ],
   "note": "Proved for any number of clients without the races of C29 and the late starts of C27, for requests with packet ID 0 that fit in a page with their replies (which is all that the library sends, as the proof for programs shows); progress for those that read no more than ten words of the configuration space. A simulation by the device with pages of C26; programs of a client that is alone end to end. False otherwise: a read of an eleventh word of the configuration space ends the target (within the reach of a client), an ignored packet publishes a page of 65536 words, and long replies run over the next page."
  },
  {
   "property": "C76",
   "status": "partial",
   "theorems": [
    "Verif.C76_verdict_partial",
    "Verif.C76_accepts_partial",
    "Verif.C76_detects_partial",
    "Verif.C76_dummy_partial",
    "Verif.C76_violated_uri",
    "Verif.C76_violated_overflow",
    "Verif.C76_violated_exit",
    "Verif.C76_violated_depth"
   ],
   "note": "Proved from the calls of the test down to the packets (C15, C16) for every random stream, every number of clients and every target that executes well-formed packets. Partial because four clauses are false: the soak test takes any '-1.3' in the URI for the version and then rejects perfect memory (C76_violated_uri); rand() + rand() overflows, undefined behaviour (C76_violated_overflow); a difference in the first part ends the process instead of returning false (C76_violated_exit); depth 0 computes rand() % 0 (C76_violated_depth). Packets are not lost in the connection model used (linkT); blocks have less than 2^29 words."
  },
  {
   "property": "C77",
   "status": "partial",
   "theorems": [
    "Verif.TgtTest.C77_detects",
    "Verif.TgtTest.C77_accepts_partial",
    "Verif.TgtTest.C77_ends_partial",
    "Verif.TgtTest.C77_rejects",
    "Verif.TgtTest.C77_violated_none",
    "Verif.TgtTest.C77_violated_dummy",
    "Verif.TgtTest.C77_violated_size"
   ],
   "note": "Success implies correct replies in every round, for every target (C77_detects); targets with the status the script has built in, 2000 bytes and 5 buffers, pass (C77_accepts_partial, C77_rejects); the script ends (C77_ends_partial). Partial because three clauses are false: with 0 iterations it never ends (C77_violated_none); the repository's own target, which does what it should, is rejected, with exit status 0 (C77_violated_dummy); a status reply of another size is an uncaught exception (C77_violated_size). Not modelled: late or duplicate datagrams, the text output."
  },
  {
   "property": "C78",
   "status": "partial",
   "theorems": [
    "Verif.C78_line",
    "Verif.C78_read",
    "Verif.C78_report_partial",
    "Verif.C78_lines",
    "Verif.C78_quiet_partial",
    "Verif.C78_throws",
    "Verif.C78_name_partial",
    "Verif.C78_violated_name",
    "Verif.C78_violated_throws"
   ],
   "note": "Exactly the overlaps, one line each, unique reading, for tables whose blocks are not empty and do not pass the end of the address space (as C36, where the exceptions are violations) and ids without quotes and line ends. Two clauses are false: slashes in the name of the address file become hyphens, so reports can take each other's place (C78_violated_name; C78_name_partial without hyphens); and a report directory that cannot be searched makes an exception leave the construction of the device (C78_throws says exactly when, C78_violated_throws)."
  },
  {
   "property": "C79",
   "status": "partial",
   "theorems": [
    "Verif.Os.C79_head_partial",
    "Verif.Os.C79_stamp_read",
    "Verif.Os.C79_undefined",
    "Verif.Os.C79_packet_pieces",
    "Verif.Os.C79_packet_restores",
    "Verif.Os.C79_packet_partial",
    "Verif.Os.C79_packet_read",
    "Verif.Os.C79_nodes_partial",
    "Verif.Os.C79_violated_left",
    "Verif.Os.C79_violated_hex",
    "Verif.Os.C79_violated_fill",
    "Verif.Os.C79_violated_packet",
    "Verif.Os.C79_violated_packet_left",
    "Verif.Os.C79_violated_nodes"
   ],
   "note": "Independence of pieces and restored formatting of packets hold in full. The texts are as claimed on streams that pad on the left and write no prefixes (decimal ones for log messages, with fill character 0 for packets), from 1900 on; that they are on every stream is false, as is that the stream is left as it was by log messages and nodes (the C79_violated theorems). C79_undefined says exactly for which times memory outside of a table is read."
  },
  {
   "property": "C80",
   "status": "partial",
   "theorems": [
    "Verif.C80_common_partial",
    "Verif.C80_sum_partial",
    "Verif.C80_tickets_partial"
   ],
   "note": "Partial for the reasons of C42 only: one device client for the whole run, and no datagram is later than the bound (the code does execute packets twice without it, C42_violated theorems). Clients over TCP with IPbus 2.0; the sums and the drawn numbers are on the test target."
  },
  {
   "property": "C81",
   "status": "partial",
   "theorems": [
    "Verif.C81_rows_partial",
    "Verif.C81_update_partial",
    "Verif.C81_udp_partial",
    "Verif.C81_tcp_partial",
    "Verif.C81_paged_partial",
    "Verif.C81_red",
    "Verif.C81_missing",
    "Verif.C81_violated_device",
    "Verif.C81_violated_red",
    "Verif.C81_violated_path",
    "Verif.C81_violated_title",
    "Verif.C81_violated_root"
   ],
   "note": "False in the code if the name of a device occurs in that of another (values of the other device, C81_violated_device; not red, C81_violated_red), if the last id of a path occurs before on the path (C81_violated_path) or if a node is called uTCA HW (C81_violated_root); titles are cut at underscores (C81_violated_title). Proved for all other names, with masks other than 0 (C60)."
  },
  {
   "property": "C82",
   "status": "partial",
   "theorems": [
    "Verif.C82_item_partial",
    "Verif.C82_slice",
    "Verif.C82_value",
    "Verif.C82_str",
    "Verif.C82_loop_partial",
    "Verif.C82_loop_buffer_partial",
    "Verif.C82_operators_partial",
    "Verif.C82_int",
    "Verif.C82_words",
    "Verif.C82_unary",
    "Verif.C82_early_item",
    "Verif.C82_early_partial",
    "Verif.C82_early_word",
    "Verif.C82_violated_loop",
    "Verif.C82_violated_float",
    "Verif.C82_violated_division",
    "Verif.C82_violated_index",
    "Verif.C82_violated_none",
    "Verif.C82_violated_early"
   ],
   "note": "Slices, values and texts are proved without restriction. False in the code: loops over blocks without a name may read freed memory (C82_violated_loop), floats are cut to integers (C82_violated_float), divisions are missing (C82_violated_division), indices beyond int raise TypeError and blocks of 2^31 words have no items (C82_violated_index), comparison with None raises (C82_violated_none), buffers and empty slices of blocks that are not validated raise nothing (C82_violated_early)."
  },
  {
   "property": "C83",
   "status": "partial",
   "theorems": [
    "Verif.C83_replaced_partial",
    "Verif.C83_common_partial",
    "Verif.C83_sum_partial",
    "Verif.C83_tickets_partial",
    "Verif.C83_own",
    "Verif.C83_violated_lost"
   ],
   "note": "False in the code: a request that is cast to a device client at the moment when it ends is lost and its client waits forever (C83_violated_lost). The theorems suppose that device clients end with an empty mailbox, and the bound on late datagrams of C42."
  },
  {
   "property": "C84",
   "status": "partial",
   "theorems": [
    "Verif.C84_classes_partial",
    "Verif.C84_copy",
    "Verif.C84_factory",
    "Verif.C84_cast",
    "Verif.C84_violated_unknown",
    "Verif.C84_violated_twice",
    "Verif.C84_violated_message",
    "Verif.C84_violated_ctor"
   ],
   "note": "False in the code: an element with a module and an unknown class gives a node of the class of the included file (C84_violated_unknown); of two classes with one name the second cannot be had (C84_violated_twice); the message of a failed getNode<T> has the class of the wrong node (C84_violated_message); constructors see address 0 (C84_violated_ctor)."
  },
  {
   "property": "C85",
   "status": "partial",
   "theorems": [
    "Verif.C85_read_partial",
    "Verif.C85_write",
    "Verif.C85_page_partial",
    "Verif.C85_memory_partial",
    "Verif.C85_lock_partial",
    "Verif.C85_name_partial",
    "Verif.C85_violated_lock",
    "Verif.C85_violated_wrap",
    "Verif.C85_violated_name"
   ],
   "note": "False in the code: if a lock cannot be released the file says that it has it after it was closed and opened again (C85_violated_lock); byte counts and addresses are 32-bit products (C85_violated_wrap), the theorems are about those that fit; paths with colons may share a name (C85_violated_name)."
  },
  {
   "property": "C86",
   "status": "partial",
   "theorems": [
    "Verif.C86_catch",
    "Verif.C86_nearest",
    "Verif.C86_fallback",
    "Verif.C86_python",
    "Verif.C86_all",
    "Verif.C86_rethrown",
    "Verif.C86_dispatch_partial",
    "Verif.C86_handlers_partial",
    "Verif.C86_validate_partial",
    "Verif.C86_timeout_partial",
    "Verif.C86_violated_slice",
    "Verif.C86_violated_connect",
    "Verif.C86_violated_open",
    "Verif.C86_violated_python"
   ],
   "note": "False in the code: response codes of targets are thrown as TransactionLevelError since IPbusCoreResponseCodeSet does not override throwAsDerivedType (C86_violated_slice); timeouts in connecting are no ClientTimeout (C86_violated_connect); a UDP socket that cannot be opened again throws an exception of boost (C86_violated_open); timeouts other than of TCP and UDP have no class of their own in Python (C86_violated_python). What pybind11 does is supposed."
  },
  {
   "property": "C87",
   "status": "proved",
   "theorems": [
    "Verif.Robust.C87_atomic",
    "Verif.Robust.C87_exclusion",
    "Verif.Robust.C87_progress",
    "Verif.Robust.C87_number",
    "Verif.Robust.C87_most_recent"
   ],
   "note": "The mutex of POSIX (robust, process-shared) and the construction in shared memory by boost are supposed to be as documented; accesses to the device under the mutex are left out."
  },
  {
   "property": "C88",
   "status": "proved",
   "theorems": [
    "Verif.C88_apart",
    "Verif.C88_sent",
    "Verif.C88_values",
    "Verif.C88_fresh",
    "Verif.C88_paged",
    "Verif.C88_tcp_apart",
    "Verif.C88_tcp_sent",
    "Verif.C88_tcp_values",
    "Verif.C88_tcp_fresh",
    "Verif.C88_tcp_defined",
    "Verif.C88_dropped",
    "Verif.C88_paged_dropped",
    "Verif.C88_tcp_dropped"
   ],
   "note": "The exception handler is one step, as in C18. TCP: validation of a chunk is one step per packet; behaviour is undefined if the handler empties the vector over which read_callback loops, which C88_tcp_defined excludes for runs in which the handler does not run with the network thread busy (C21). After a failed validation the object is given back twice; the handler empties the pool afterwards."
  },
  {
   "property": "C89",
   "status": "partial",
   "theorems": [
    "Verif.C89_udp_partial",
    "Verif.C89_tcp_partial",
    "Verif.C89_clean_partial",
    "Verif.C89_tcp_clean_partial",
    "Verif.C89_race_partial",
    "Verif.C89_violated_busy",
    "Verif.C89_violated_race"
   ],
   "note": "Proved for handlers that begin when no socket operation is pending and no callback in progress. False otherwise: a packet whose sending completes between two statements survives the handler (C89_violated_busy). Even with nothing pending, CheckDeadline uses the socket and the buffers under a lock that the handler does not take (C89_violated_race); no other statement is in conflict with it (C89_race_partial)."
  },
  {
   "property": "C90",
   "status": "partial",
   "theorems": [
    "Verif.C90_address",
    "Verif.C90_address_number",
    "Verif.C90_report_partial",
    "Verif.C90_client_lines",
    "Verif.C90_device_lines",
    "Verif.C90_status_lines",
    "Verif.C90_status_reply",
    "Verif.C90_status_none",
    "Verif.C90_status_some",
    "Verif.C90_hex_partial",
    "Verif.C90_stamp_partial",
    "Verif.C90_violated_exit",
    "Verif.C90_violated_hex",
    "Verif.C90_violated_stamp",
    "Verif.C90_violated_since"
   ],
   "note": "Proved, except where it is false: starts are shown to the millisecond only (C90_violated_since), binaries that are not whole words are all printed alike (C90_violated_hex), time stamps lose the year from 2100 on (C90_violated_stamp), and the script ends with status 0 whatever it receives (C90_violated_exit). The report theorem is for years of at most four digits."
  },
  {
   "property": "C91",
   "status": "partial",
   "theorems": [
    "Verif.C91_udp",
    "Verif.C91_tcp",
    "Verif.C91_paged",
    "Verif.C91_violated_broken"
   ],
   "note": "Proved for UDP and TCP clients without restriction. PCIe and mmap clients drop the object of a packet whose page cannot be read or is bad (C91_violated_broken); an exception follows, and its handler empties the pool anyway. Without such a step it is proved for them too (C91_paged)."
  },
  {
   "property": "C92",
   "status": "partial",
   "theorems": [
    "Verif.C92_udp_partial",
    "Verif.C92_tcp_partial",
    "Verif.C92_paged_partial",
    "Verif.C92_line",
    "Verif.C92_violated_module",
    "Verif.C92_violated_block"
   ],
   "note": "Proved for all trees with ids that are not empty, have no dot and differ on each level, and masks other than 0, over UDP, TCP, PCIe and mmap. Not true as stated: nodes that are no registers but have registers below are read and printed too (C92_violated_module), of a block of memory only the first word is printed (C92_violated_block)."
  },
  {
   "property": "C93",
   "status": "partial",
   "theorems": [
    "Verif.C93_udp",
    "Verif.C93_tcp",
    "Verif.C93_udp_ends",
    "Verif.C93_tcp_ends",
    "Verif.C93_cast_partial",
    "Verif.C93_violated_cast",
    "Verif.C93_violated_twice",
    "Verif.C93_violated_zero"
   ],
   "note": "Proved for the loops over UDP and TCP. The loop for device clients takes every message for a right reply (C93_violated_cast); only its counting is proved. Requests are all the same, so that a reply that comes twice stands for that to the next request (C93_violated_twice). With a window of 0 nothing is sent and a reply is reported missing (C93_violated_zero)."
  },
  {
   "property": "C94",
   "status": "partial",
   "theorems": [
    "Verif.C94_frame",
    "Verif.C94_tx",
    "Verif.C94_pramtx",
    "Verif.C94_both",
    "Verif.C94_pramrx_partial",
    "Verif.C94_violated_contents",
    "Verif.C94_violated_address"
   ],
   "note": "Proved for three of the five requests. That which only reads the port RAM expects zeros, which nothing has written (C94_violated_contents; C94_pramrx_partial if it reads as 0). That which writes and reads the port RAM has a wrong address (C94_violated_address); it is not used."
  },
  {
   "property": "C95",
   "status": "partial",
   "theorems": [
    "Verif.C95_copy_partial",
    "Verif.C95_violated_same",
    "Verif.C95_violated_dot"
   ],
   "note": "Proved for trees in which names have no dots, are not empty and are different among the children of a node. Of two children with the same name one is copied twice and the other is missing (C95_violated_same); a child with a dot in its name is left out (C95_violated_dot)."
  },
  {
   "property": "C96",
   "status": "partial",
   "theorems": [
    "Verif.C96_packets",
    "Verif.C96_depth",
    "Verif.C96_tx",
    "Verif.C96_jumbo",
    "Verif.C96_result_partial",
    "Verif.C96_all",
    "Verif.C96_violated_none",
    "Verif.C96_violated_late"
   ],
   "note": "Proved: the packets, the memory afterwards, and that at most nine replies are missing after ok. That all requests were answered is false: without a target a test of nine turns ends with ok and reports its data as transferred (C96_violated_none); a late reply stands for that to the next request (C96_violated_late)."
  },
  {
   "property": "C97",
   "status": "partial",
   "theorems": [
    "Verif.C97_read_partial",
    "Verif.C97_write_partial",
    "Verif.C97_violated_endless",
    "Verif.C97_violated_product"
   ],
   "note": "Proved for fewer than 2^32 turns and a product below 2^64, at the level of the calls (what a program of calls does to a target: C08, C16). The counter of the loop has 32 bits and the option 64: with 2^32 turns or more the test does not end (C97_violated_endless). The product of clients, turns and depth can overflow (C97_violated_product)."
  },
  {
   "property": "C98",
   "status": "partial",
   "theorems": [
    "Verif.C98_answers_partial",
    "Verif.C98_echo",
    "Verif.C98_violated_crash",
    "Verif.C98_violated_buffers",
    "Verif.C98_violated_shutdown"
   ],
   "note": "Proved for all sequences in which each packet of four bytes or more is one that the emulator knows, with a memory of one response. Any other such packet, for example a duplicate or a packet with another ID, ends the emulator (C98_violated_crash). It announces 16 response buffers and keeps one response (C98_violated_buffers). The loop for IPbus 2.0 ignores shutdown (C98_violated_shutdown)."
  },
  {
   "property": "C99",
   "status": "partial",
   "theorems": [
    "Verif.C99_udp",
    "Verif.C99_tcp_partial",
    "Verif.C99_fifo",
    "Verif.C99_delay",
    "Verif.C99_drain",
    "Verif.C99_violated_passive",
    "Verif.C99_violated_start"
   ],
   "note": "TCP: proved for active sockets (true and once). With a passive socket the server ends when the first client leaves (C99_violated_passive). The performance tester calls start_udp_echo_server with one argument, which is not exported (C99_violated_start)."
  },
  {
   "property": "C100",
   "status": "partial",
   "theorems": [
    "Verif.C100_status_partial",
    "Verif.C100_report",
    "Verif.C100_violated_interrupt",
    "Verif.C100_violated_none",
    "Verif.C100_violated_start"
   ],
   "note": "Proved without Ctrl-C outside of a command. After such a Ctrl-C the status is 0 whatever has failed (C100_violated_interrupt). A search text that selects nothing gives status 0 (C100_violated_none). The command that tests the start of the hub has the exit code of the last stop, so that a hub that never starts is not counted (C100_violated_start). That a dead dummy hardware is noticed is due to an exception that is not caught."
  },
  {
   "property": "C101",
   "status": "partial",
   "theorems": [
    "Verif.C101_start_partial",
    "Verif.C101_stop_partial",
    "Verif.C101_status_partial",
    "Verif.C101_ask",
    "Verif.C101_violated_start",
    "Verif.C101_violated_twice",
    "Verif.C101_violated_stop",
    "Verif.C101_violated_general"
   ],
   "note": "stats and info: proved (C101_ask). start: proved for launches with code 0 or 4 and a node that can be connected to if it answers; a launch that fails with 1 is reported as a running hub (C101_violated_start), and a hub that answers but cannot be connected to is started again (C101_violated_twice). stop: proved if the process can be asked for; if not, a running hub is reported as stopped already (C101_violated_stop); code 3 is never given (C101_violated_general). status also gives 2 and 127, which are not documented (C101_status_partial)."
  },
  {
   "property": "C102",
   "status": "partial",
   "theorems": [
    "Verif.C102_check_partial",
    "Verif.C102_ends",
    "Verif.C102_known",
    "Verif.C102_violated_circle",
    "Verif.C102_violated_unused"
   ],
   "note": "Proved for checks that end, with the list of known names; they end if the references have an order (C102_ends). With a circle of references the check does not end (C102_violated_circle). Two of the known names, tcp_socket_opts and device_allowlist, are not read from the configuration (C102_violated_unused)."
  },
  {
   "property": "C103",
   "status": "partial",
   "theorems": [
    "Verif.C103_windows_partial",
    "Verif.C103_own_list",
    "Verif.C103_violated_failed",
    "Verif.C103_violated_imported",
    "Verif.C103_violated_shared"
   ],
   "note": "Proved for modules with a class, of which the first by name is taken; it may be one that the module only imports (C103_violated_imported). Without a class TypeError is raised instead of FAILED (C103_violated_failed). Calls with a list: proved (C103_own_list). Calls without a list share one list: the call after n others gives the default GUI n+1 times (C103_violated_shared)."
  }
 ]
}