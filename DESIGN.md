# Formal model of uHAL / IPbus: design

Source: `/repo` (ipbus-software, read as text). Tool: Lean 4.33 (+ single Mathlib modules where noted).
Layout: `lean/Verif/Model/*` is the model (every definition cites the lines it models),
`lean/Verif/Spec/*` the independent specifications, `lean/Verif/Lemmas/*` helper lemmas,
`lean/Verif/Props/*` the property theorems (one file per property group, with non-vacuity examples beside them).

Paths below are relative to `/repo/uhal/uhal/src/common` unless they start with `include/`
(= `/repo/uhal/uhal/include/uhal`), `grammars/`, `tests/` (= `/repo/uhal/...`) or `controlhub/`.

## Trusted base

* Lean's kernel. No theorem depends on axioms other than `propext`, `Classical.choice` and `Quot.sound`; `AXIOMS.md` lists them per
  theorem named in `MANIFEST.json` (generated with `#print axioms`). No own axioms, no `sorry`, no `native_decide`, no `bv_decide`.
  `decide +kernel` is used for concrete witnesses and examples only.
* The reading of the C++ (and Erlang) text into the model. The model is written by hand, from the text: nothing has been compiled or
  run. Every definition cites the lines it models; every simplification is named in the comment of the file or the definition.
* C++ integers: `uint32_t` is `BitVec 32` or a `Nat` modulo 2^32, `int32_t` two's complement. Out-of-range shifts, out-of-bounds
  accesses of buffers, `pop` on an empty queue, division by zero and the like are the distinct outcome `ub` (or `none`), not assumed away.
* Taken as given: boost::asio (a completion handler runs at most once per operation, in the network thread; `cancel` makes the handler
  run with an error or leaves a completion that has already happened), OS sockets, pugixml (the document tree), boost::spirit (its
  combinators are functions on character lists), the memory model of C++ (sections under a mutex are atomic steps; unprotected
  accesses are separate steps), POSIX signals, `flock`. Wall-clock time does not occur: a timeout is an event that may happen
  whenever the code could observe it.

## What is modelled, and what is not

| model file (`lean/Verif/Model/`) | code |
|---|---|
| `Bits`, `Header` | `utilities/bits.cpp`, `ProtocolIPbusCore.cpp` / `ProtocolIPbus.cpp` headers, `include/ProtocolIPbus*.hpp` |
| `Client` | `ClientInterface.cpp` (read, write, block, RMW calls), `ProtocolIPbusCore.cpp`, `ProtocolIPbus.cpp` (packet building, `predispatch`), `ProtocolControlHub.cpp` (preamble), `Buffers.cpp` |
| `Validate` | `IPbusCore::validate`, `IPbus::validate`, `ControlHub::validate`, `ClientInterface::validate` |
| `ValMem`, `UserCalls` | `ValMem.cpp`, `include/ValMem.hpp`: `ValHeader`, `ValWord`, `ValVector` as handles to shared objects |
| `Link` | a generic asynchronous transport (what `implementDispatch`, `Flush` and the handler are relied on for) |
| `Target` | `tests/src/common/DummyHardware.cpp` (memory and transactions), with `IPbusInspector.cpp` |
| `Udp`, `Tcp` | `ProtocolUDP.cpp`, `ProtocolTCP.cpp`: user thread, callbacks, deadline timer, exception handler, step by step |
| `Paged` | `ProtocolPCIe.cpp`, `ProtocolMmap.cpp`, `detail/RobustSessionMutex.cpp`, `tests/src/common/PCIeDummyHardware.cpp`: pages, counters, sessions, `File::write` |
| `PagedProg` | programs of client calls on `Paged` |
| `Xml` | `include/TemplateDefinitions/XmlParser.hxx` (rules), `utilities/xml.cpp` (numeric attributes) |
| `Node`, `Builder`, `NodeAttr` | `Node.cpp`, `NodeTreeBuilder.cpp`, `grammars/src/common/NodeTreeParametersGrammar.cpp`, `NodeTreeFirmwareInfoAttributeGrammar.cpp` |
| `Conn`, `Uri` | `ConnectionManager.cpp`, `utilities/files.cpp` (opening), `grammars/src/common/URIGrammar.cpp`, `URI.cpp`, `SemicolonDelimitedUriListGrammar.cpp`, `ClientFactory.cpp` |
| `Stats`, `SigBus` | `utilities/TimeIntervalStats.cpp`, `SigBusGuard.cpp` |
| `Hub` | `controlhub/src/ch_device_client.erl` (IPbus 2.0), with the packet-level part of `DummyHardware.cpp` |
| `HubFirst` | the rest of `ch_device_client.erl`: first exchange, IPbus 1.3, the end; mailbox |
| `Hub13` | one connection to an IPbus 1.3 target: `TraMgr` and `HubFirst` with mailbox and network in one transition system; the loop of `IPbusInspector` on the bytes of a packet. Not modelled: what a target does with a packet that it refuses |
| `HubProc` | the UDP process of a device client (`udp_proc_loop`, `udp_send`), the mailboxes of both processes with selective `receive`, the `send`/`recv` clauses of `device_client_loop`, `handle_info`; what is done with a message is `HubFirst`. Not modelled: `inet_reply` (Erlang up to 19), the end of the UDP process, time (a datagram from elsewhere restarts the timer in the `send` clause, so that a steady stream of them postpones recovery) |
| `PcieDummy` | `PCIeDummyHardware`: FIFO, page header, page and status words as separate steps; the clients of `Paged` in front of it. The FIFO is one of words and unbounded; a packet is written by one atomic `write` (it is shorter than `PIPE_BUF`), and so is each write to the file; the end of the file and the delay of replies are left out |
| `AddrDesc` | `getAddressDescription` (detail/utilities.cpp), called with the root of a tree; `getLineage` |
| `Hw` | `HwInterface.cpp`: constructors, copies, the generated assignment, destruction; `claimNode`; the client's pointer to the nodes |
| `HwProg` | programs of calls on nodes named by ids: `HwInterface::getNode(id)`, the `Node` call, `HwInterface::dispatch` |
| `Decode` | `uhal/tools/scripts/gen_ipbus_addr_decode`: tree of nodes, widths, overlap check, bit patterns, and the VHDL function it writes (`std_match` and the choice of the slave). Not modelled: text of the file, messages, negative widths; `int` and the logarithm are parameters |
| `Threads` | `mUserSideMutex` in the public calls of `ClientInterface.cpp` and `ProtocolIPbusCore.cpp`: threads sharing a client |
| `TraMgr` | `controlhub/src/ch_transaction_manager.erl` (one connection), with the device client of `Hub` |
| `HubWire` | words in memory as bytes on the wire, between `Tcp` and `TraMgr` |
| `ExcText` | `uhal/log/src/common/exception.cpp`: the text of an exception in its block of 65536 bytes; `log ( exception , ... )`. Not modelled: the time, the virtual functions other than `description` |
| `Fmt` | `uhal/log/include/uhal/log/log_inserters.integer.hxx`, `.cpp`: integers as text, with the buffer and the tables of digits |
| `Log` | `uhal/log/src/common/log.cpp`, `LogLevels.cpp`, `log` of `log.hxx`: levels, compile-time exclusion, mutex, pieces of a message; threads as interleavings of steps. Not modelled: text of the time and of the thread id, errors of the stream, `insert` functions that call `log` themselves (they would wait for their own mutex) |
| `Make` | constructors of the clients from a URI: `ProtocolUDP.cpp`, `ProtocolTCP.cpp`, `ProtocolControlHub.cpp` (`ExtractTargetID`), `ProtocolPCIe.cpp`, `ProtocolMmap.cpp`; an exception while the dispatch thread runs is `terminate`. Name resolution and free memory are parameters; `lexical_cast` and the parsers of Spirit are modelled by what they accept |
| `HubApp` | `controlhub/src/ch_tcp_listener.erl`, `ch_stats.erl`, `ch_transaction_manager.erl` (acceptor, socket process, counters): all processes of a ControlHub and their messages to listener and statistics server. Not modelled: the supervisor; for the text of the report see `HubText` |
| `Device` | `ConnectionManager.cpp` (`getDevice`): puts together `Conn`, `Builder` and `Make` |
| `DevPaged` | `ProtocolPCIe.cpp:425-440, 466-470`, `ProtocolMmap.cpp:370-385, 410-412`: the constants that the packet builder takes from a PCIe or mmap client |
| `Inspector` | `src/common/IPbusInspector.cpp`: `analyze` of both inspectors with any virtual functions, and the texts they log |
| `Dummy` | `tests/src/common/DummyHardware.cpp`, `UDPDummyHardware.cpp`, `TCPDummyHardware.cpp`: the whole target with its histories, on `Inspector` |
| `Files` | `utilities/files.cpp` (`ShellExpandFilenameExpr`, `HttpGet`, `OpenFileLocal`, `OpenFileHttp`, `OpenFile`), `grammars/src/common/HttpResponseGrammar.cpp`; shell, file system, name service and server are parameters |
| `Soak` | `tests/src/common/PerfTester_static.cpp`: the validation test (`runValidationTest`, write read-back tests, soak test); the floating-point computation of block sizes is a parameter |
| `TargetTest` | `controlhub/test_ipbus2_target.escript`: the whole script but for its output; random numbers, target and `ping` are parameters. Not modelled: late or duplicate datagrams, negative packet IDs, the byte orders and functions that are not used |
| `Overlap` | `detail/utilities.cpp`: `printNodeOverlapDescription`, `writeNodeOverlapReport`; `NodeTreeBuilder::checkForAddressCollisions`. The answers of the file system and the text of the time are parameters |
| `Stream` | output streams with their formatting (`std::ostream`: base, case, prefix, adjustment, fill, width; classic locale, no errors); `log_inserters.time.cpp`, `.hxx`, `colour_head` of `LogLevels.cpp`, `PacketFmt.cpp`, `Node::stream`. The name of the class of a node is a parameter (`abi::__cxa_demangle`, which is given a static buffer that it may `realloc`, is not modelled) |
| `Hall` | several connections to one ControlHub with one target: `TraMgr` for each connection, one device client (`Hub`) for all |
| `Gui` | the GUI's tree of nodes, monitoring thread, tables of registers (not: the drawing, plots, windows for single registers) |
| `PyVal` | ValVector and ValWord in Python: items, slices, texts, buffers, loops, operators (not: `__format__`, texts of words, conversions in function arguments) |
| `Era` | device clients one after the other: `Hall`, and replacement of idle device clients (not: the first status exchange of each, which is in `HubFirst`) |
| `Derived` | registration of node classes, `getNode<T>`; the classes of built nodes are in `Node`, `Builder` (not: what the classes themselves do) |
| `PcieFile` | `PCIe::File`: buffer, system calls, lock; names of shared memories (not: what the system does, which is given) |
| `Classes` | classes of exceptions, what `dispatch` throws, `throwAsDerivedType`, translation to Python (not: pybind11, which is supposed to try translators last registered first) |
| `Robust` | `RobustSessionMutex` and the sections of PCIe and mmap clients under it, one access to shared memory at a time, with deaths (not: the accesses to the device in these sections, boost's shared memory) |
| `Pool` | `mBuffers`, `mCurrentBuffers` and the queues of `UDP`, `PCIe`, `Mmap` with names of objects and their contents in a memory |
| `PoolTcp` | the same for `TCP`; `read_callback` validates the packets of a chunk one by one |
| `HandlerSteps` | `dispatchExceptionHandler` of `UDP` and `TCP` statement by statement, with steps of the network thread in between; members used by it and by `CheckDeadline` |
| `HubText` | texts of `ch_stats.erl` (report) and `ch_utils.erl` (addresses, time stamps, hexadecimal printouts), `ipbus2_udp_status.escript`. Not modelled: the conversion of a time stamp to a date, IPv6 addresses, parsing of arguments |
| `Dump` | uhal_inspect_registers.py | `snapshot` and the lines that are printed, `getNodes(regex)` with its order; not the options |
| `Perf` | ch_unittest_common.erl, perf_tester.escript | the three loops of the performance tester, with a mailbox; not the packets it sends nor the rates it prints |
| `PerfPackets` | perf_tester.escript | the requests and expected replies of the performance tester, as words |
| `HwStruct` | gui/utilities/hardware.py | `Node`, `IPEndPoint` and `HardwareStruct`: the copy of all trees; not the values nor the texts printed |
| `Bandwidth` | controlhub/test/src/bandwidthTest.erl | the six requests and the loop; replies are only counted, as in the code |
| `Latency` | tests/src/common/tools.cpp, PerfTester.cxx | `measureReadLatency`, `measureWriteLatency`: the calls in order; not the time |
| `Emulator` | controlhub/unittest/ch_unittest_common.erl | `device_emulator_init`, `device_emulator_loop` for both versions; not failures of the socket |
| `Echo` | controlhub/unittest/ch_unittest_common.erl, perf_tester.escript | echo servers for UDP and TCP, `tcp_recv`, `udp_async_send`, `dummy_device_client_loop`; which calls are defined. Not failures of TCP sends |
| `Suite` | uhal/tests/scripts/uhal_test_suite.py | the loop over sections and commands, background processes, selection of sections, exit status; outcomes of commands are inputs |
| `HubCtl` | controlhub/rel/files/controlhub, nodetool | `start`, `stop`, `status`, `info`, `stats` and their exit codes; what the node does is an input of each call. Not the part of the script before the case, not the check of the configuration |
| `ChkConfig` | controlhub/rel/files/nodetool, ch_config.erl | `check_config_file` and the names of parameters; file names are not resolved |
| `GuiLoad` | gui/utilities/utilities.py, gui/guiloader.py | `dynamic_loader`, `OnInit`, `loader`, `test`; attributes of a module by name and whether they are classes |
| `Registry`, `Allow` | `controlhub/src/ch_device_client_registry.erl`, `ch_config.erl` (allowlist: reading the file, decision) |

Not modelled: inserters of `uhal/log` other than integers, times and headers, the Python bindings other than blocks and words (`PyVal`), the GUI other than its tables of registers (`Gui`),
the test runners and `PerfTester` other than its validation and bandwidth tests, what user classes derived from `Node` add to it, `SetHelper`, the wording of exception messages (how their texts are kept and shared is in `ExcText`), the parts of the ControlHub other than device client, registry, allowlist, transaction manager, TCP listener and statistics
(supervisor, logging, the start-up scripts other than their exit codes), and the configuration space of IPbus 2.0 targets other than through the generic transaction semantics.

## Plan per property

| id | what is modelled | how it is proved |
|---|---|---|
| C01 | `CalculateHeader`/`ExtractHeader` v1, v2 on `BitVec 32` | bit-extensionality; independent field spec |
| C02 | `TrailingRightBits` on `BitVec 32` | invariant of the binary search, lowest-bit spec |
| C03, C04 | masked write/read, RMW-bits on the target | bit-level reasoning from C02 |
| C05, C06 | `implementWriteBlock/ReadBlock` loops incl. `checkBufferSpace`, int32 byte counter | loop invariant (strong induction on the remaining count) |
| C07 | client state machine over all operations | invariant over operation lists; `ub` outcome for overflow; witness for too small `max_payload_size` |
| C08, C16 | packets as word lists, independent parser (`HostToTargetInspector` and DummyHardware) | simulation: parser of built packet = transactions; refinement to abstract memory |
| C09 | transaction counter | invariant over operation lists; with failing calls, the packets fall into epochs and ids count from 0 in each |
| C10 | `predispatch` of IPbus 1.3 | arithmetic on list lengths |
| C11, C12, C15 | `validate` loop over send words / reply slots | induction over the packet's transaction list; C12 is violated by truncated final payload: negation + `_partial` |
| C13, C14 | ValMem handle store | invariant; C14 violated by `operator=`/`mask`: negation + `_partial` |
| C17 | exception handlers of each layer | state equality with initial state; simulation of the UDP and TCP clients by `linkT`; TCP violated (C23) |
| C12, C15, C16, C17 over UDP, TCP, PCIe, mmap | programs on the state machines of `Udp`, `Tcp`, `Paged` | simulation: every run is a run of `linkT` with the same answers (`udp_refines`, `tcp_refines`, `paged_refines`) |
| C16 with the device behind the pages | the same, one client | invariant of client and device (`Solo`), carried through programs by a simulation of the run with itself |
| C18-C20 | UDP client as a transition system (user thread + callbacks) | inductive invariant over all schedules |
| C21-C23 | TCP client as a transition system | inductive invariant; C23 violated: witness trace + `_partial` |
| C24, C25 | ControlHub preamble/predispatch/validate on bytes | invariant; case analysis |
| C26-C28, C31 | PCIe / mmap ring, page header | invariant over dispatch/flush sequences; interrupt mode violates C27, mmap violates C31 |
| C29 | robust session mutex with several clients and crashes | invariant over interleavings |
| C30 | mmap File::write on a byte memory | frame lemma; violated at odd lengths |
| C32-C36, C41 | node trees | structural induction; violations (uint32 wrap, size 1, firmware info) get witnesses |
| C37 | rule parser with 64-bit attribute hashes | bit-set invariant |
| C38 | numeric attribute parser on character lists | induction on digit lists |
| C39 | URI grammar as PEG on character lists | round-trip by induction |
| C40 | connection map fold | induction over entries |
| C42 | ControlHub device client + IPbus 2.0 target + lossy network | inductive invariant over all schedules |
| C43 | TimeIntervalStats | induction over operations; `clear` violates: witness |
| C44 | SigBusGuard | case analysis over outcomes; constructor failure violates: witness |
| C45 | outcomes `ub` and `hang` of every client call | invariant of C07/C11 |
| C46 | reply memory of the UDP client | size bounds of C07 |
| C47, C48 | file cache and recursion of the tree builder | coherence invariant; fuel and acyclicity |
| C49 | file list grammar | induction over the list |
| C50 | transaction manager + device client + target + network, other connections as events | invariant relating counters to the lists of packets and messages; uses C42 |
| C52 | registry process, asking processes, device clients that end, delayed exit signals | invariant: index and reverse index are inverse, running ⊆ registered ⊆ running or exit under way |
| C53 | allowlist file as text, dictionary, decision | text lemmas (strip, regular expression, split, numbers); last entry of a list; C52 |
| C54 | texts of `parameters` and `fwinfo`, putting attributes of included files together | parsers agree with a grammar (longest match); table of C32 with the descriptive attributes |
| C55 | device client from start to end as a transition system; the same with target and network | tally of every client over all events; rank that timeouts decrease; the loop is simulated by the system of C42 |
| C56 | the same with an IPbus 1.3 target | invariant: what is under way belongs to the latest request; a second invariant for the order: the i-th message answers the i-th request of the mailbox |
| C57 | threads, explicit mutex, steps of a call (take, look, change, give back) interleaved | invariant: the client is in the state of the calls in the order of their changes; then C15, C16 |
| C58 | the loops of `getAddressDescription` over positions in the tree | longest common prefix is a greatest lower bound; paths as concatenations |
| C59 | heap of `HwInterface` objects and node trees, histories of constructions, copies, assignments, destructions | invariant: the object that a tree points to lives and has the right client |
| C60 | tree built from the files, lookup by id, checks of `Node`, client and transport in one run | lookup in the tree = lookup in the table; a program is the program of its client calls; then C16 for each transport |
| C61 | decoder generator on the tree built from the files, generated function on all addresses | the script's tree is the node tree; ranges of slaves are aligned and apart, so two bases differ in a bit above both widths, which is in both patterns; content of endpoints by induction over the tree |
| C62 | client over TCP and the world of C50, connected by their messages | the shared target is a target whose state also holds what others will do before each access; without a failed call the whole run is one connection; C51, then C16 on that target |
| C63 | client over UDP; the network as a relation between datagrams sent and received | ids of the packets of a run are consecutive; an accepted reply has the ids of its packet, so within 2^12 (2^11) transactions it is the reply to this packet; then C16 |
| C64 | text of an exception as C string in a block; programs of operations on exceptions | simulation of a user's view (list of texts added); exact condition for the write behind the block |
| C65 | loops over bits, bytes and decimal digits | lists of digits and their positional value, then the numeral spec of C38 |
| C66 | threads that take a mutex, insert pieces and change flags | invariant: complete messages followed by the beginning of the message of the thread that holds the mutex; the levels through a property of flags and steps left that every step keeps |
| C67 | constructors: loops over the arguments, parsers of numbers and of the target | the loops against a specification of settings (the last one counts) by induction over the arguments; target bytes through C24, C51 |
| C68 | `HubApp`: processes with queues of messages to listener and statistics server, tables | an invariant that balances the server's numbers against the phases of the processes and the messages under way, induction over the events |
| C69 | `getDevice`; programs on its nodes over UDP, TCP, TCP through a ControlHub, PCIe and mmap (`Props/C69Paged`: also to the PCIe test target) | C40, C67, C32, C47 give client and tree; C60's lemmas turn calls on nodes into calls of the client; C62, C73 (IPbus 1.3), C63, C16 |
| C70 | `analyze` of both inspectors, with the virtual functions as a parameter; texts | the loop follows the parser of `Spec.Txn` by induction over the packet; texts through C65; packets of programs through C08, replies through the test target |
| C71 | the virtual functions of `DummyHardware` as parameter of `Inspector`; UDP and TCP handlers | simulation of the packet-level target of `Hub` (whose `exec` is the loop of `Target`), which in turn follows the relation in `Spec/Dummy.lean`; sequences by induction; `C71World`: the ControlHub of `HubFirst` in front of this target, the memory after any run with the network of C62 |
| C72 | opening files; the rules of the HTTP grammar as functions with what they leave of the input | the parser on the text of a response of `Spec/Files.lean` rule by rule (induction over header lines); conversely each rule leaves a suffix; the read loop by induction over the stream |
| C73 | client over TCP and the world of `Hub13`, connected by their messages | invariant of the connection (answers = messages of the device client, at most as many as packets), C56, C50; no error code without a failed call, so the target has executed every packet once: two strictly ordered lists of the same length; then as C62 |
| C74 | UDP process, device client, mailboxes, network with strangers | simulation by the world of `HubFirst`: datagrams to be sent are those sent there, the requests in the mailbox are its inbox, every datagram in a mailbox is one that the target sent; then C55, C56. `C74_never_stuck`: cases over the states of the client |
| C75 | target step by step, clients of `Paged`, FIFO | simulation by the device with pages of C26 (`PRel`: what each phase of the target means for the FIFO and for the page in work), which discharges for this target the simplification of `Paged` that the device answers in one step; progress by a measure that each step decreases; programs: `TSim` against `pagedT` with the schedule recorded, then C16 |
| C76 | the calls and checks of the validation test as a list of steps (random numbers do not depend on the hardware), their run by the client | the steps are within the contract of the client and look at values after a dispatch only, so C16 gives the results one at a time; every expected value is what memory gives (invariant of the copy of the registers), so the checks hold if and only if the results are those of memory |
| C77 | transactions with the values expected, cut into packets | the list of transactions is right for every memory because each sequence begins with a write; packets cut it anywhere; induction over the rounds |
| C78 | text of the report, and where it goes | digits by induction; lines cut at quotes and brackets, which the parts do not contain; pairs from C36, paths from C33 |
| C79 | text that appears on a stream | figures by induction on their number; packets by induction on the bytes; trees by mutual induction, positions from C33 |
| C80 | one order of all word accesses | each connection seen alone is a run of C62's world; the order is that of the device client (C42), blocks of accesses per packet; what each sees by replaying its words (`script` target) |
| C81 | tables on the screen are those of the address table | `__build_tree` gives the tree of the nodes up to the order of dictionaries; rows are a permutation of the lines below the selected one; values by C16 and C60 |
| C82 | Python lists and numbers, stated apart from CPython's computation of slices | induction on the loops; two lists in the same strict order with the same elements are equal |
| C83 | C80's | the invariant of the device client (C42) shows that a new one is in the state of an idle old one; C80 |
| C84 | `FileKinds`: class of each element by its attributes and the included files | induction over elements and nesting of files, sorting and copying permute; cache by C47 |
| C85 | bytes and words of the device, least significant first; `Written` | case by case; invariant: the buffer is as large as recorded; induction over calls for buffer and lock |
| C86 | `Derives`: closure of the declared bases; `TimedOut` | induction over declarations; suffixes of chains of bases; pairwise order of registrations |
| C87 | `Session.State.deeds`: sections one at a time | invariant with the prefix of the running section (refinement); counting deeds |
| C88 | `Apart`, `SentAsGiven` | number of holders of an object; simulation by `Udp` and `Tcp`, where packets are values |
| C89 | in the theorems | statements and steps of an idle network thread commute |
| C90 | `Spec/HubText` | numerals end at the first character that is not a digit; items of a list begin differently from what follows it |
| C91 | `Spec/PoolKept` | each step keeps the set of objects that are anywhere; a stretch of numbers that are all in a list is not longer than the list |
| C92 | `Spec/Dump` | sorting is a permutation and sorted; each name is found at its own position (C33); the calls mean what the table says (C60, C16) |
| C93 | `Spec/Perf` | invariant of the loops: sent, left, in flight, replies taken, packets in the mailbox; a turn sends a request or takes a message |
| C94 | in `Props/C94` (`Expects`, `InFrame`) | requests parsed with `parsePacket`, run on a target with memory; the reply header by header |
| C95 | `Spec/HwStruct` | names without dots in `getNodes` are the children, sorted; induction over the tree with the path of the parent |
| C96 | in `Props/C96` (`HoldsTxns`, `countUp`, `wordsMoved`) | packets parsed with `parsePacket`; blocks of writes on memory by induction; counters of the loop by induction |
| C97 | in `Props/C97` (`callsOn`, `accsOf`, `Moves`) | the loop unrolled by induction over the turns left; calls of one client selected |
| C98 | in `Props/C98` (`Ev`, `due`, `lastOf`, `Fits`, `replies`) | state after a past given by the past; induction over the messages; `C98_violated_crash` is the converse |
| C99 | in `Props/C99` (`driverReads`, `tcpSession`, `requests`, `stamps`) | induction over messages, clients and turns; responses followed by the queue are the requests |
| C100 | in `Props/C100` (`SuiteGood`, `SuiteSelected`, `suiteFailures`) | induction over the commands with the counters and the background processes |
| C101 | in `Props/C101` (`startDoc`, `startFact`, `stopDoc`, `Reached`) | case analysis over all outcomes; induction over the pings |
| C102 | in `Props/C102` (`CfgRefers`, `CfgReach`, `CfgGood`) | induction over the depth of the calls |
| C103 | in `Props/C103` (`FirstClass`, `HasClass`) | sortedness of the attributes; induction over modules and calls |
| C51 | bytes of TCP chunks, `TraMgr`, `Hub`, replies in the client's memory | byte-order lemmas, C24, C50, induction over the packets of a chunk |

## Findings

Places where the code, as read, does not do what the property says. For each there is a theorem with a concrete witness
(a program, schedule or file) in the model; the property itself is then proved with the hypothesis that excludes the case
(suffix `_partial`).

**Packets and replies**
* A reply that is too short is accepted if only the data of the last transaction of the packet is missing; the caller gets zeros
  marked valid. `C12_short_reply_accepted`
* IPbus 1.3: the success test ignores the reply flag of the header, so that an echo of the request is accepted. `C11_v1_echo`
* IPbus 1.3: a refused configuration-space read has already incremented the transaction counter. `C09_gap`
* IPbus 1.3: padding with byte-order transactions adds up to 20 bytes of reply that are not counted against the maximum. Harmless
  with the UDP and TCP clients, which allocate 20 bytes more. `C07_v1_reply_can_exceed`, `C46_reply_memory`
* `validate`, when it reports an error for a trailing byte-order transaction, reads one word behind the packet. `C11_tight_capacity`
* A mask of zero makes the shift of `readMasked` undefined; `TrailingRightBits` negates `INT_MIN` for the mask `0x80000000`.
  `C02_zero_mask`, `C02_top_bit_mask`
* Blocks of 2^29 words and more overflow the signed byte counter (excluded by hypothesis in C05, C06, C45).

**Values**
* `ValWord::operator=`, `mask`, `valid(bool)` and `clear` change objects that have become valid. `C14_violated_*`
* `valid(true)` makes the value of a reply observable before it has arrived; resizing a `ValVector` that is queued writes to freed
  memory. `C13_forged`, `C13_resized_too_early`

**Messages**
* `exception::append` limits `strncat` to 65536 minus the length of the text, which leaves no room for the terminating zero: a text that
  reaches 65536 characters writes one byte behind the block (and later copies and appends more). The message for an unknown node contains the
  id that the user asked for, so a long id is enough. `what()` of an exception without text leaves "(no additional info)" in the text.
  `C64_append_iff`, `C64_violated_overflow`, `C64_violated_look`
* `setLogLevelTo` changes the flags of the levels one after the other, without the mutex that `log` holds (and `log` reads them before taking it). Another thread can
  lose an error message and still write an information after it. `C66_violated_torn`
* The response code in the message of a failed transaction follows "0x" but is written in decimal: code 15 is shown as 0x15. `C65_violated_code`

**UDP client.** The exception handler takes no lock and does not wait for cancelled operations.
* Null pointer dereference in a callback; a datagram of the previous attempt is taken for a reply; a completion of the previous
  attempt fails a new packet; the counter of packets in flight wraps. `C18_violated_null`, `C18_violated_stale`,
  `C20_violated_stale`, `C19_violated`
* Control packets are sent with packet id 0, which tells the target to execute whatever arrives. If the network duplicates a request it is executed
  twice (a sum is added twice); if it exchanges two requests and their replies, a read can return the value before a write that precedes it
  in the program. No call fails. (The ControlHub numbers its packets; C42, C62.) `C63_violated_duplicate`, `C63_violated_reorder`

**TCP client**
* Entries of `mReplyQueue` survive the exception handler, after which replies are written to buffers that no longer exist, or the
  next dispatch waits for a reply that never comes. `C23_violated`, `C23_violated_read`, `C23_violated_two_reads`,
  `C23_violated_spurious`
* The body of a chunk is stored for all its packets before the first is validated; when one is refused, the memory of the later
  ones holds words nobody checked (not marked valid). `C12_tcp_junk`
* `Flush` sends one chunk more than the limit. `C22_violated_limit`
* No timeout is armed while the body of a reply is outstanding; `connect` holds the mutex that the deadline handler needs.
  `C22_violated_stall`

**PCIe and mmap clients**
* With interrupts, from the second packet on a reply is read before it is published. `C27_violated_interrupt`
* After an exception or a crash with requests outstanding, the next session takes replies of the previous one for its own.
  `C27_violated_stale`, `C17_violated_paged` (as a program: a read of 0x20 returns the content of 0x10), `C29_violated_crash`; and without failure, if a session ends while the next begins. `C29_violated_race`
* mmap: the word behind a packet of odd length is cleared, also across a page boundary; the end of the mapping is checked with
  32-bit arithmetic; page sizes may be clipped; the result of `mmap` is compared with a null pointer. `C30_violated_*`,
  `C26_violated_clip`
* mmap: `max_in_flight` is ignored. `C31_violated_mmap`
* A page size of 0 gives a maximum packet size of 2^32 − 1; a SIGBUS during a write leaks the bounce buffer (read, not modelled).

**Address tables and nodes**
* An element without attributes that no rule accepts gives `std::length_error`. `C37_violated_length_error`
* The address of an included file is combined with `|=`. `C32_violated_or`
* A file that includes itself: infinite recursion. `C48_violated`
* Repeated ids among siblings are accepted; lookup then finds one of them, a copy of the tree perhaps another.
  `C33_violated_dup`, `C33_violated_built`
* Block calls of one word on a bit-field ignore its mask. `C34_violated_block`, `C34_violated_block_read`
* Block bounds are checked with a 32-bit sum that wraps; a size of 1 is not checked. `C35_violated_wrap`, `C35_violated_one`
* Address overlaps involving empty blocks are reported, those involving blocks that pass 2^32 are missed. `C36_violated_*`
* `parameters`: the rest of the text is dropped silently after any character that does not belong (`gain=1.5;offset=2` gives `gain=1`
  only), or a space after a separator. `fwinfo`: an argument called `type` is dropped; without a type everything is; after an empty
  argument the separator becomes part of the next name; an argument without `=` ends in an exception of Boost that is not one of
  uhal's. The class of an included file is overwritten even if the including element has none. `C54_violated_parameters`,
  `C54_violated_fwinfo`, `C54_included`
* `Node::operator=` does not copy the firmware info. `C41_violated_assign`
* Read, not modelled separately: the check of incremental blocks against the 32-bit address space uses the partial address only;
  children of an element with `module` are ignored; `size` without `mode` is ignored.

**Connections**
* Two connection files in different directories may name different address tables by the same relative path; the second definition
  counts as a repetition of the first. `C40_violated_relative`
* Without a port, path and extension of a URI become part of the host name. `C39_violated_path`. The client factory ignores the
  result of the parser. `C39_violated_empty`
* UDP, TCP and ControlHub clients: an argument of the URI that is not accepted (a misspelt name with UDP, a value of `max_payload_size` that is not a number) throws in the body of
  the constructor, when `mDispatchThread` runs already: its destructor calls `std::terminate`, and the exception `InvalidURI` never reaches anybody.
  `C67_violated_terminate`, `C67_violated_terminate_text`. TCP ignores misspelt names. `C67_violated_ignored`. `max_payload_size=-1` is accepted; the memory for
  replies then has 19 bytes. `C67_violated_negative`. With `max_payload_size=0` the first call writes behind the buffer. `C67_violated_zero`
* File lists: white space in file names is dropped, malformed lists are cut off or merged silently. `C49_violated_*`

**Statistics and signals**
* `TimeIntervalStats::clear` pops from an empty queue after more than five measurements and keeps the sum; sum, minimum and maximum
  start uninitialised; the mean of nothing divides by zero. `C43_violated_*`
* A `SigBusGuard` whose constructor throws leaves its handler and signal mask installed. `C44_violated_*`

**ControlHub**
* A request that was still in the network when the device client gave up can be executed after the next one has started, and its
  reply is forwarded to another client. `C42_violated_restart`
* Packet IDs repeat after 65535 packets; a datagram that old is executed again. `C42_violated_age`
* A message with packets for two targets: the responses of the second are dropped and the client never gets its answer.
  `C50_violated_two_targets`. A message for another target while responses are outstanding makes the ControlHub forget them.
  `C50_violated_switch`. A message of less than eight bytes makes it forget the target. `C50_violated_short`
* A message whose first packet is cut off is never answered, nor is any later one. `C50_violated_stuck`
* A blocked target is answered with one response whatever the number of packets, ahead of those still outstanding.
  `C50_violated_blocked`
* The response to a malformed status reply contains the IP address as a tuple (ch_device_client.erl:763), the transaction manager
  does not recognise it, and the client waits for ever. `C50_violated_malformed_status`
* A first packet that is malformed makes `handle_cast` fail to match, and the requests of other clients that are queued are lost.
  `C55_violated_first`. A request cast to a device client that is just stopping is lost. `C55_violated_late`. With a target that reports
  no buffers, the device client answers one request and fails. `C55_violated_no_buffers`
* IPbus 1.3: any UDP packet from the target is taken for the reply to the request in flight; a reply that arrives twice goes to the next
  client too. `C56_violated_duplicate`, `C56_violated_twice`. Two clients number their transactions alike, so uHAL does not notice either: a user reads
  one register and gets, without an error, the value of another one that another client has read. `C73_violated_duplicate`
* A device client is a `gen_server` that is idle until its first request; `handle_info` (ch_device_client.erl:501-503) ends it on any other message. A datagram from
  anywhere to its ephemeral port in this time ends it, and the request that is already under way is never answered: its client waits for ever. `C74_violated_idle`
* With Erlang 20 or later the UDP process uses `ok = gen_udp:send(…)` (ch_device_client.erl:880): an error (no route; a packet of more than 65507 bytes, which any client can
  send) ends it, and the device client that is linked to it, without a message to any of the clients that wait. `C74_violated_send`
* `PCIeDummyHardware.cpp`: a read of the configuration space behind the ten words throws in the thread of the target, which nothing catches: no request is answered
  any more. `C75_violated_config`. A packet that is to be ignored is published as a page of 65536 words (`C75_violated_id`); a reply that is longer than a page is
  written over the next one (`C75_violated_reply`). The last two need packets that the library does not send.
* `PerfTester_static.cpp`: the soak test takes a `-1.3` anywhere in the URI for the protocol version (`ipbusudp-2.0://crate-1.3:50001`) and then rejects a perfect device
  (`C76_violated_uri`); `rand() + rand()` on `int`s overflows (`C76_violated_overflow`); a failed write read-back test ends the process, the `return false` behind
  the tests is dead code (`C76_violated_exit`); depth 0 divides by 0 (`C76_violated_depth`).
- Formatting of streams. Log messages set the fill character to `0` and leave it so (`C79_violated_fill`); with `std::hex` or `std::left` on the stream (`uhal::log` writes to
  `std::cout`, which is shared with the user) the microseconds are wrong (`C79_violated_hex`, `C79_violated_left`). `PacketFmt` needs the fill character `0` but does not set it
  (`C79_violated_packet`). `Node::stream` saves the flags of `std::cout` and not of the stream that it writes to, and sets these after each node (`C79_violated_nodes`).
  `print< yr >` reads in front of its table for years before 1900, and all follow a null pointer if `localtime` fails (`C79_undefined`).
- The GUI finds the values for a table by `x in self.__id`, a search for names of devices in `<device>_<number>` (hardware_table_panel.py:205-219): with devices `dummy` and `dummy2` the
  tables of the second may show the registers of the first, and are not red when it is missing (`C81_violated_device`, `C81_violated_red`). `nodes.remove(nodes[-1])` removes the first
  id that is equal to the last, so that the register a.b.a has the row `b.a.a` and never a value (`C81_violated_path`). Nothing below a node called `uTCA HW` can be selected
  (`C81_violated_root`), titles are cut at the first underscore of the device's name (`C81_violated_title`).
- In Python, `for x in node.readBlock(n)` style loops over a ValVector that has no other reference use memory that the client frees after ten more packets (`py::keep_alive` is missing at
  cactus_pycohal.cpp:290, `C82_violated_loop`). ValWord(2) equals 2.5 (`C82_violated_float`), `w // 2` and `w / 2` raise TypeError (`C82_violated_division`), so does `w == None`
  (`C82_violated_none`); `memoryview` of memory that is not validated is empty where every other access raises (`C82_violated_early`).
- A device client that ends because it has been idle loses requests that are cast to it after its timeout has fired; the connection waits forever (ch_device_client.erl:264-270, `C83_violated_lost`).
- An unknown class on an element that includes a file: the warning says that a plain node comes out, but it is of the class of the included file's outermost element (DerivedNodeFactory.cpp:77-96, `C84_violated_unknown`).
- Two derived node classes with the same unqualified name: the second is not registered, with a warning only, and nodes become objects of the first (DerivedNodeFactory.hxx:46-52, `C84_violated_twice`).
- The message of `BadNodeCast` names the class of the node on which `getNode<T>` is called instead of that of the node found (TemplateDefinitions/Node.hxx:55, `C84_violated_message`).
- Constructors of derived node classes see the address 0 since addresses are computed after them (NodeTreeBuilder.cpp:186-195, 251-274, `C84_violated_ctor`).
- `PCIe::File::close` resets `mFd` but not `mLocked` if `flock(LOCK_UN)` fails; the client then writes without the lock (ProtocolPCIe.cpp:120-130, 296-303, `C85_violated_lock`).
- `PCIe::File::read` multiplies numbers of words by four in 32 bits: 2^30 words overrun the buffer (ProtocolPCIe.cpp:157-186, `C85_violated_wrap`; not reachable through the client, whose reads are bounded by the page size).
- Device paths that differ in `/` and `:` only share their session mutex and counter (ProtocolPCIe.cpp:306-312, `C85_violated_name`).
- `IPbusCoreResponseCodeSet` is declared without the macro and does not override `throwAsDerivedType`, so `dispatch` throws bus errors of targets as `TransactionLevelError`; `catch ( IPbusCoreResponseCodeSet& )` never applies (ProtocolIPbusCore.hpp:104-109, ProtocolTCP.cpp:585-588, ProtocolUDP.cpp:449-452, `C86_violated_slice`).
- A timeout while a TCP client connects is thrown as `TcpConnectionFailure`, which is no `ClientTimeout` (ProtocolTCP.cpp:168-193, `C86_violated_connect`).
- `UDP::connect` lets `boost::system::system_error` out of `dispatch`; in Python it is a `RuntimeError` (ProtocolUDP.cpp:166-175, `C86_violated_open`).
- In Python the timeouts of PCIe and mmap clients and of targets behind a ControlHub are plain `uhal.exception` (exceptions.cpp:19-32, `C86_violated_python`).
- Not modelled, seen on the way: PCIe and mmap clients do not delete the exception that `validate` returns (ProtocolPCIe.cpp:656-657, ProtocolMmap.cpp:557-558).
* C88 (no violation, but near one): `ClientInterface::validate` (ClientInterface.cpp:187-202) takes the pointer by value, so `mReplyBuffers` still points to an object that is back in the pool. After a failed validation `dispatchExceptionHandler` (ProtocolUDP.cpp:489, ProtocolTCP.cpp:623) gives it back a second time. Two packets would share it, were it not for `deleteBuffers` (ClientInterface.cpp:366), which empties the pool at the end of the handler.
* C89: `dispatchExceptionHandler` (ProtocolUDP.cpp:458-493, ProtocolTCP.cpp:593-629) does not lock `mTransportLayerMutex`. A completed send can put its packet into `mReplyQueue` after that queue has been emptied (`C89_violated_busy`). `CheckDeadline` tests `mDispatchBuffers` and `mReplyBuffers` and closes the socket while the handler does the same: a data race even if no operation is pending (`C89_violated_race`).
* C90: `print_binary_as_hex` prints the same for all binaries that are not whole words (`C90_violated_hex`); `timestamp_string` prints the year minus 2000 in a field of two characters, from 2100 on two asterisks (`C90_violated_stamp`); the status script ends with status 0 if the reply has a bad header or a wrong size (`C90_violated_exit`).
* C91: `PCIe::read` and `Mmap::read` take a packet out of `mReplyQueue` before its page is read; if that fails, the object is neither given back to the pool nor kept (`C91_violated_broken`; it is deallocated).
* C92: `uhal_inspect_registers.py` also reads nodes that are not registers, at their address (`C92_violated_module`; if nothing answers there, nothing is printed), and prints the first word only of a block (`C92_violated_block`).
* C93: `gencast_msg_client_loop` has `Any`, a new variable, where the expected message should be (`C93_violated_cast`). Not modelled, seen on the way: `perf_tester.escript` calls `start_udp_echo_server/1`, which does not exist (it has two parameters, ch_unittest_common.erl:129), sets `max_in_flight`, which is not the name of a parameter of the hub, and in `IPBUS_BOTHFULL_PRAM_REQ` (not used) has the address 0x20002001 for 0x2001; the TCP loop waits 200 ms and reports 20 ms.
* C94: `IPBUS_RXFULL_PRAM_REP` expects zeros in a port RAM that no request has cleared (`C94_violated_contents`); `IPBUS_BOTHFULL_PRAM_REQ` has the address 0x20002001 (`C94_violated_address`).
* C95: `HardwareStruct` takes children from `getNodes` with a pattern and looks them up by name (`C95_violated_same`, `C95_violated_dot`). Not modelled, seen on the way: `HardwareStruct(None, id, uri, table)` calls a constructor of `ConnectionManager` with three strings, which does not exist (cactus_pycohal.cpp:392-394), and `update_node_value` uses an attribute that is nowhere set.
* C96: `runTestWithTimer` prints the amount of data for all turns, also for those without a reply (`C96_violated_none`); `sendReceiveLoop` takes any packet for the reply (`C96_violated_late`).
* C97: `measureReadLatency` and `measureWriteLatency` count with `unsigned` up to a `size_t`; `--iterations` is a `uint64_t` (`C97_violated_endless`).
* C98: the emulator of IPbus 2.0 in the tests of the hub ends with `case_clause` on any packet that it does not expect, keeps one response although it announces 16 buffers, and does not know the message `shutdown` that its documentation asks for (`C98_violated_crash`, `C98_violated_buffers`, `C98_violated_shutdown`).
* C99: `tcp_recv` for passive sockets expects `tcp_closed` where `gen_tcp:recv` gives `error, closed` (`C99_violated_passive`); perf_tester.escript:221 calls `start_udp_echo_server/1`, only `/2` exists (`C99_violated_start`).
* C100: uhal_test_suite.py ends with status 0 after Ctrl-C, with no section selected, and when the hub never starts (`C100_violated_interrupt`, `C100_violated_none`, `C100_violated_start`).
* C101: exit codes of the hub scripts that say something else than what happened: `C101_violated_start`, `C101_violated_twice`, `C101_violated_stop`, `C101_violated_general`; `controlhub_status` gives 127 for a node without the hub.
* C102: a circle of references in the configuration files keeps the start of the hub from ending (`C102_violated_circle`); `tcp_socket_opts` and `device_allowlist` pass the check but are not read (`C102_violated_unused`); the configuration that ipbus_perf_suite.py writes defines `max_in_flight` and does not pass (example in `Props/C102`).
* C103: the GUI loader takes the first class by name, also an imported one (`C103_violated_imported`; `DefaultGui` comes before its imports), raises `TypeError` where it should say FAILED (`C103_violated_failed`), and collects default GUIs in a mutable default argument (`C103_violated_shared`).
- `checkForAddressCollisions` calls `is_regular_file` and `permissions` outside of its `try` block: if `/tmp/$USER/uhal` exists but may not be searched, a `filesystem_error`
  leaves the construction of the device, although overlaps are otherwise only a warning (`C78_violated_throws`). Slashes in the name of the address file become hyphens, so that
  `/top/a.xml` and `/top-a.xml` have the same report (`C78_violated_name`). A report stays when the table has been corrected.
- `test_ipbus2_target.escript`: the iteration counter starts at 1 and is compared with `=:=` after each iteration, so that 0 iterations never end (`C77_violated_none`). The
  script has buffers of 2000 bytes built in and is aimed at 127.0.0.1:50001, where `DummyHardware` listens, which reports 400000: the first status reply is a bad one
  (`C77_violated_dummy`). Whatever it finds, the exit status is 0. A status reply of another size is an uncaught `badmatch` (`C77_violated_size`). The argument `RunMode`
  is ignored; `random` is never seeded, so that every run makes the same tests (both read, not modelled).
* Threads sharing a client: when a call of one thread fails, the queued calls of the other threads are dropped, and their `dispatch` returns
  without exception. `C57_violated_lost`
* The text of a bad-response-code exception: a block that reaches address 0xFFFFFFFF matches none of its addresses (the sum wraps to 0).
  `C58_violated_top`. When the root of the tree is a register (all its children have masks), `getLineage` throws `std::runtime_error`, and there is
  no text. `C58_violated_root`. As read: the exception is thrown in the middle of `validate`, where callers expect only `uhal::exception`.
  After a copy of an `HwInterface` has been made and destroyed the text is empty, because the client then points to the copy's nodes. `C58_violated_copy`
* `HwInterface` has a copy constructor and no `operator=`: after `hw = manager.getDevice(…)` the nodes of `hw` point to the destroyed temporary
  (`C59_violated_temporary`); if another device object gets the same address, the calls go to that device without any error (`C59_violated_other`).
* `gen_ipbus_addr_decode`: the end of an endpoint's content is taken from the last inner endpoint instead of the largest (line 160), so that some of its addresses
  may select no slave or another one (`C61_violated_nested`); a logarithm in floating point makes 30 of 29 bits (`C61_violated_width`); `a.b` and `a_b` get the same
  constant (`C61_violated_names`); nodes below the start of their endpoint are not noticed (`C61_violated_wrap`).
* Read, not modelled: a response to an invalid packet (code 6) overtakes those of earlier packets; an `{error, …}` from the registry fails to match in `enqueue_request`.
* The registry hands out device clients that have ended already; what is cast to them is lost. `C52_violated_dead`
* Allowlist: of two lines for one IP address only the last counts, so that two ports of a device cannot be listed.
  `C53_violated_ports`. The result of `ch_config:init` is ignored: after a line it does not understand (for instance a blank line of
  space, tab, space) the ControlHub runs, but every access to a device crashes the connection. `C53_violated_blank`. A remark with a
  dot after an address becomes a port; a line of seven digits stops the application; a space before a tab hides the address.
  `C53_violated_remark`, `C53_violated_crash`, `C53_violated_tab`
* A UDP packet of less than four bytes stops the process (one of the causes in `C55_errors`; the target never sends one).
* Statistics: if the socket process cannot send (the client has gone while answers are under way), or the transaction manager crashes, `client_disconnected` is
  never called: the client counts as active for ever. `C68_violated_active`. After a failed `gen_tcp:accept` or `inet:peername` the socket process waits for
  `start` for ever (it traps exits), and the next acceptor is started at once, without delay. `C68_violated_orphans`. Refused requests (blocked targets) are
  counted nowhere (`count`).
- `TargetToHostInspector::analyze` has no case for `CONFIG_SPACE_READ`: replies to reads of the configuration space are logged as errors (unknown header) and
  `analyze` gives up. `C70_violated_config`. Neither inspector compares `aIt` with `aEnd` before it reads: a control packet of one word, a write that is cut off, and
  a reply that has the word count of a failed read but no data make it read behind the end. `C70_violated_short`. Of a packet header only the lowest four bits are
  looked at. `C70_violated_header`.
  What is shown without complaint is in the packet (`C70_sound_partial`), up to two lapses: a reply header of IPbus 1.3 is taken for a request, and the word count of a
  read-modify-write is not looked at. `C70_violated_lenient`
- `DummyHardware`: `mType` is not initialised, so that what is answered to a malformed first packet is undefined (`C71_violated_first`); later on the answer is a header
  with the fields of an earlier transaction (`C71_violated_stale`). A configuration space read behind the ten words leaves the handler as an exception and ends the
  program (`C71_violated_config`). The history of replies starts with five replies of 400000 zero bytes for the ID 0, which a resend request for 0 gets
  (`C71_violated_zero`; 400000 bytes do not fit into a datagram). Over TCP, the placeholder for the byte count makes the reply to an ignored packet nonempty, and it is
  kept in the history in place of an older one (`C71_violated_tcp`).
- `HttpGet` does not look at whether the response could be parsed. The skipper of the grammar takes line ends for white space: without a reason phrase (which RFC 2616
  allows to be empty) the first header is taken for it, and if that was the only header, the body for the headers — the file is empty and accepted
  (`C72_violated_reason`); without headers likewise (`C72_violated_headers`). The length that the server announces is not compared with what arrived, and a
  response that ends after `HTTP/1.0 200` is an empty file (`C72_violated_short`). White space at the beginning of a page is dropped (`C72_violated_blank`). After
  `HTTP` without a status, an `int` that was never set is compared with 200 (`C72_violated_status`), and `HttpGet<true>` writes it to the log. `resolver.resolve`
  is outside the `try` blocks: for an unknown host, or one with a port, an exception that is not one of uHAL's leaves the library (`C72_violated_host`).
- `ShellExpandFilenameExpr` ignores the result of `wordexp`; after an error the structure need not have been written, and is read. `OpenFileLocal` takes the address
  of the first byte of an empty file (`C72_violated_local`). Without `WRDE_NOCMD`, an address table that refers to a module `file://$(command)` runs the command
  (read, not modelled).
