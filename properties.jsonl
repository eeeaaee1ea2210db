{"id": "C01", "title": "Transaction headers survive the wire", "statement": "For IPbus 1.3 and IPbus 2.0, decoding an encoded transaction header returns the transaction type that was encoded and the word count and transaction id truncated to the width of their fields; two requests that differ in type, in-range word count or in-range id never share a header word; a header of the other protocol version, or with an unassigned type code, is refused; and types that a version does not support are refused at encode time.", "quantifier": "every transaction type, every 32-bit word count, id and info code, and every 32-bit word offered to the decoder", "why_tests_cant": "There are 2^32 headers per version and 9 types; a unit test samples a handful of them, and field overlap shows only for particular bit combinations.", "anchors": ["uhal/uhal/src/common/ProtocolIPbus.cpp: IPbus<1,m>::CalculateHeader, ExpectedHeader, ExtractHeader; IPbus<2,m>::CalculateHeader, ExpectedHeader, ExtractHeader"]}
{"id": "C02", "title": "The shift applied for a bit mask is the position of its lowest set bit", "statement": "For every non-zero mask the shift used when writing or reading through the mask is the index of the least significant set bit, so shifting right then left by it loses no masked bit; a zero mask gives a shift of 32, which the callers then use as a C++ shift count (undefined behaviour).", "quantifier": "all 2^32 masks", "why_tests_cant": "The bit trick is a chain of six conditional subtractions; an error shows only for masks exercising one particular subset of branches.", "anchors": ["uhal/uhal/src/common/utilities/bits.cpp: TrailingRightBits", "uhal/uhal/src/common/ClientInterface.cpp: ClientInterface::write (masked)", "uhal/uhal/src/common/ValMem.cpp: ValWord<T>::value"]}
{"id": "C03", "title": "Masked write accepts exactly the values that fit the field", "statement": "A masked register write is accepted if and only if the value, moved to the field's position, loses no bits and sets no bit outside the mask; a rejected write throws, queues nothing and leaves the client unchanged; an accepted one queues exactly one read-modify-write whose effect on any register content is to replace the masked bits with the value and leave every other bit unchanged.", "quantifier": "all values, all non-zero masks, all prior register contents, all client states", "why_tests_cant": "A test fixes one mask and one old register value; leaking into neighbouring fields depends on the combination of mask, value and old content.", "anchors": ["uhal/uhal/src/common/ClientInterface.cpp: ClientInterface::write ( const uint32_t& aAddr, const uint32_t& aSource, const uint32_t& aMask )"]}
{"id": "C04", "title": "Masked write followed by masked read returns the written value", "statement": "After an accepted masked write, a masked read of the same register with the same mask yields exactly the written value, and a masked read with any disjoint mask yields what it yielded before.", "quantifier": "all non-zero masks, values and register contents", "why_tests_cant": "Quantifies over 2^96 combinations of mask, value and old register content.", "anchors": ["uhal/uhal/src/common/ClientInterface.cpp: write (masked), read (masked)", "uhal/uhal/src/common/ValMem.cpp: ValWord<T>::value"]}
{"id": "C05", "title": "A block write is sent exactly once, in order, at the right addresses", "statement": "However a block write is split into transactions and packets, the transactions' payloads concatenated in send order equal the caller's vector; in incremental mode the n-th word travels in a transaction that puts it at base address + n, in non-incremental mode every word goes to the base address; every transaction's declared word count equals the number of words it carries and fits the header's word-count field; an empty vector still produces exactly one (empty) transaction.", "quantifier": "every vector below 2^29 words, every base address, both modes, every fill level of the current packet, every legal packet-size configuration, both protocol versions", "why_tests_cant": "The split points depend on the remaining room in the packet, the packet-size limit and the word-count limit together; a missing or duplicated word appears only at specific combinations.", "anchors": ["uhal/uhal/src/common/ProtocolIPbusCore.cpp: IPbusCore::implementWriteBlock", "uhal/uhal/src/common/ClientInterface.cpp: checkBufferSpace"]}
{"id": "C06", "title": "A block read fills every word of the result exactly once", "statement": "However a block read is split, the destination slices handed to the transport tile the result vector exactly (in order, no gap, no overlap, nothing outside the vector), the requested word counts add up to the requested size, the incremental addresses match the slice offsets, and each transaction's word count fits the header field.", "quantifier": "every size below 2^29 words, every base address, both modes, every buffer fill level, every legal packet-size configuration, both protocol versions", "why_tests_cant": "A hole or overlap in the tiling only appears at particular remaining-space values and silently leaves zeros in the result.", "anchors": ["uhal/uhal/src/common/ProtocolIPbusCore.cpp: IPbusCore::implementReadBlock", "uhal/uhal/src/common/ClientInterface.cpp: checkBufferSpace"]}
{"id": "C07", "title": "Packets never exceed the configured size limits", "statement": "For every sequence of queued operations, the request packet handed to the transport is never longer than the maximum send size, the reply expected for it is never longer than the maximum reply size (in IPbus 1.3 never more than 20 bytes longer, the reserve the UDP client keeps, because padding is added without looking at the reply size), and bytes are never written beyond the end of the send buffer - provided the configured sizes are at least the protocol's minimum.", "quantifier": "every sequence of reads, writes, block transfers, RMWs, configuration reads and dispatches, every configuration satisfying the stated minimum", "why_tests_cant": "Buffer overflow depends on the whole history of operations since the last dispatch.", "anchors": ["uhal/uhal/src/common/ClientInterface.cpp: checkBufferSpace, updateCurrentBuffers", "uhal/uhal/src/common/ProtocolIPbusCore.cpp: implement*", "uhal/uhal/src/common/Buffers.cpp, uhal/uhal/include/uhal/TemplateDefinitions/Buffers.hxx: Buffers::send", "uhal/uhal/src/common/ProtocolUDP.cpp: UDP::UDP (max_payload_size)"]}
{"id": "C08", "title": "Every packet decodes to exactly the queued transactions", "statement": "The sequence of packets produced for a program of operations, decoded by an independent IPbus parser, is exactly the sequence of transactions the program asked for: nothing lost, duplicated, reordered or torn across a packet boundary, whatever automatic (pre-emptive) dispatches happened in between; every packet is consumed exactly to its end.", "quantifier": "every program of operations, every packet-size configuration, both protocol versions", "why_tests_cant": "Automatic dispatch points depend on accumulated sizes; only some histories put a boundary at a dangerous place.", "anchors": ["uhal/uhal/src/common/ProtocolIPbusCore.cpp", "uhal/uhal/src/common/ProtocolIPbus.cpp: preamble, predispatch", "uhal/uhal/src/common/IPbusInspector.cpp: HostToTargetInspector::analyze"]}
{"id": "C09", "title": "Transaction ids count up without gaps and are unique within a packet", "statement": "Within one client, the transactions queued after construction or after an error recovery carry ids 0, 1, 2, ... modulo the id field size, in queue order; hence no two transactions in one packet share an id as long as the packet holds at most as many transactions as there are ids.", "quantifier": "every program of operations, both protocol versions", "why_tests_cant": "Wrap-around occurs after 2048 / 4096 transactions and the uniqueness argument ranges over all packets.", "anchors": ["uhal/uhal/src/common/ProtocolIPbusCore.cpp: mTransactionCounter, dispatchExceptionHandler"]}
{"id": "C10", "title": "IPbus 1.3 packets reach the minimum length", "statement": "Every IPbus 1.3 packet handed to the transport contains at least eight 32-bit words of IPbus payload plus the transport's preamble words, and the padding consists only of well-formed byte-order transactions that expect no data.", "quantifier": "every program of operations", "why_tests_cant": "Depends on the total size of whatever was queued since the last dispatch.", "anchors": ["uhal/uhal/src/common/ProtocolIPbus.cpp: IPbus<1,m>::predispatch"]}
{"id": "C11", "title": "Reply validation accepts only matching, successful replies", "statement": "If checking the reply to a packet reports no error, then for every transaction in the packet the reply header received in its slot has the right protocol version, the same type, the same transaction id and a success code (and for IPbus 2.0 the packet header equals the one sent); conversely if every slot matches, no error is reported. The check ends at the end of the packet and never looks outside the request or the reply slots.", "quantifier": "every request packet that can be produced, every reply content", "why_tests_cant": "The reply is 350+ arbitrary words; each test supplies one.", "anchors": ["uhal/uhal/src/common/ProtocolIPbusCore.cpp: IPbusCore::validate", "uhal/uhal/src/common/ProtocolIPbus.cpp: IPbus<2,m>::validate"]}
{"id": "C12", "title": "Read data become readable only if the whole reply arrived", "statement": "A value returned by read/readBlock/RMW becomes valid only if every word of its data was actually delivered by the target in the reply to that very packet.", "quantifier": "every reply length and content, every packet", "why_tests_cant": "Requires a reply truncated at each possible word boundary for each possible packet.", "anchors": ["uhal/uhal/src/common/ProtocolUDP.cpp: UDP::read_callback", "uhal/uhal/src/common/ProtocolTCP.cpp: TCP::read_callback", "uhal/uhal/src/common/ProtocolPCIe.cpp: PCIe::read", "uhal/uhal/src/common/ProtocolMmap.cpp: Mmap::read", "uhal/uhal/src/common/ProtocolIPbusCore.cpp: IPbusCore::validate"]}
{"id": "C13", "title": "Unvalidated memory can never be observed", "statement": "Through the value accessors, the content of a ValWord, ValVector or ValHeader is observable only after a successful dispatch of its packet has marked it valid; before that, and after a failed dispatch, every accessor throws NonValidatedMemory.", "quantifier": "every sequence of accessor calls, copies and dispatch outcomes", "why_tests_cant": "Quantifies over all interleavings of copies of the shared handle and accessor calls.", "anchors": ["uhal/uhal/src/common/ValMem.cpp: ValHeader, ValWord<T>, ValVector<T>"]}
{"id": "C14", "title": "Validated memory never changes", "statement": "Once a ValWord or ValVector has become valid, no further library call or user assignment through the value-type API changes the data it yields.", "quantifier": "every sequence of operations on every copy of the handle", "why_tests_cant": "Quantifies over all later operation sequences.", "anchors": ["uhal/uhal/src/common/ValMem.cpp: ValWord<T>::operator=, value(), mask(), ValVector<T>::clear, push_back, value"]}
{"id": "C15", "title": "A failed packet validates nothing", "statement": "If any transaction of a packet fails validation, no ValWord/ValVector/ValHeader belonging to that packet becomes valid and the dispatch call throws; memory validated by packets already completed stays valid with its data.", "quantifier": "every packet, every failing position, every reply content", "why_tests_cant": "The failing transaction can be at any position of any packet.", "anchors": ["uhal/uhal/src/common/ClientInterface.cpp: ClientInterface::validate, dispatch", "uhal/uhal/src/common/Buffers.cpp: Buffers::validate", "uhal/uhal/src/common/ProtocolIPbusCore.cpp: validate"]}
{"id": "C16", "title": "Queued, packed, dispatched operations behave like one-at-a-time memory accesses", "statement": "For every program of reads, writes, block transfers, masked accesses, RMW-bits and RMW-sum with dispatch calls anywhere, executed against a conforming target over a faithful transport, no exception is raised, after the final dispatch every returned value equals the one obtained by executing the operations one at a time in program order on the target's memory, and the target's final memory is the same.", "quantifier": "every program, every initial memory, every packet-size configuration, both protocol versions", "why_tests_cant": "End-to-end functional correctness over all programs and all packet splits.", "anchors": ["uhal/uhal/src/common/ClientInterface.cpp", "uhal/uhal/src/common/ProtocolIPbusCore.cpp", "uhal/uhal/src/common/ProtocolIPbus.cpp", "uhal/uhal/src/common/Buffers.cpp", "uhal/uhal/src/common/ValMem.cpp", "uhal/tests/src/common/DummyHardware.cpp"]}
{"id": "C17", "title": "After a failed dispatch the client starts again from a clean slate", "statement": "After a dispatch that threw, the next operations and dispatch behave exactly as on a freshly constructed client: no operation, reply slot, packet or in-flight count from before the failure influences them.", "quantifier": "every program, every failure point and kind of failure, every transport", "why_tests_cant": "Requires exceptions at each point of the state machine followed by arbitrary continuations.", "anchors": ["uhal/uhal/src/common/ClientInterface.cpp: dispatch, dispatchExceptionHandler, deleteBuffers", "uhal/uhal/src/common/ProtocolIPbusCore.cpp, ProtocolIPbus.cpp, ProtocolControlHub.cpp, ProtocolUDP.cpp, ProtocolTCP.cpp, ProtocolPCIe.cpp, ProtocolMmap.cpp: dispatchExceptionHandler"]}
{"id": "C18", "title": "UDP: packets are sent once, in order, and replies are matched in order", "statement": "For every interleaving of the user thread with the network thread's callbacks, each dispatched packet is sent exactly once, in dispatch order; the k-th reply datagram is scattered into, and validated against, the k-th packet; and every packet is in exactly one of the states queued / being sent / awaiting reply / being received / finished.", "quantifier": "every schedule of API calls and network callbacks, every number of packets", "why_tests_cant": "Schedules cannot be enumerated by tests.", "anchors": ["uhal/uhal/src/common/ProtocolUDP.cpp: implementDispatch, write, write_callback, read, read_callback"]}
{"id": "C19", "title": "UDP: the in-flight limit holds", "statement": "The number of packets sent whose reply has not been completely processed never exceeds the protocol's limit (1 for IPbus 1.3, 16 for IPbus 2.0), in every schedule.", "quantifier": "every schedule", "why_tests_cant": "Depends on the schedule.", "anchors": ["uhal/uhal/src/common/ProtocolUDP.cpp: mPacketsInFlight, implementDispatch, read_callback", "uhal/uhal/include/uhal/ProtocolIPbus.hpp: getMaxNumberOfBuffers"]}
{"id": "C20", "title": "UDP: dispatch returns only when everything dispatched has been answered, and cannot wait forever once it has", "statement": "If the flush at the end of dispatch returns without exception, every packet dispatched so far has been sent, answered and validated; and in every reachable state in which nothing is outstanding the flush does not block (no lost wake-up); a state with something outstanding always has a pending network operation that will eventually complete or time out.", "quantifier": "every schedule", "why_tests_cant": "Lost wake-ups occur only in rare interleavings.", "anchors": ["uhal/uhal/src/common/ProtocolUDP.cpp: Flush, NotifyConditionalVariable, WaitOnConditionalVariable, CheckDeadline"]}
{"id": "C21", "title": "TCP: packets are sent once, in order, in framed chunks, and replies matched in order", "statement": "For every interleaving, dispatched packets are sent exactly once in dispatch order, grouped into chunks whose length prefix is the number of bytes following it; replies are consumed in the same order and every packet's reply is validated against that packet.", "quantifier": "every schedule of user thread and network callbacks, every number of packets, every grouping limit", "why_tests_cant": "Schedules and groupings cannot be enumerated.", "anchors": ["uhal/uhal/src/common/ProtocolTCP.cpp: implementDispatch, write, write_callback, read, read_callback"]}
{"id": "C22", "title": "TCP: the in-flight limit holds and flush is complete", "statement": "The number of packets in flight never exceeds the limit; a flush that returns without exception has every dispatched packet sent, answered and validated; a flush never waits in a state where nothing is outstanding.", "quantifier": "every schedule", "why_tests_cant": "Depends on the interleaving of the flush flag with callbacks.", "anchors": ["uhal/uhal/src/common/ProtocolTCP.cpp: Flush, implementDispatch, write, read_callback"]}
{"id": "C23", "title": "TCP: an error leaves no stale reply expectations", "statement": "After an exception has been handled by the TCP client no reply expectation from before the exception survives, so that later packets are paired with their own replies and no extra read is issued.", "quantifier": "every schedule and failure point", "why_tests_cant": "Needs an exception at a specific point followed by a successful reconnect.", "anchors": ["uhal/uhal/src/common/ProtocolTCP.cpp: TCP::dispatchExceptionHandler, read_callback"]}
{"id": "C24", "title": "ControlHub: every packet announces its own length and target", "statement": "Each packet sent through the ControlHub starts with the target's IP address and port in network byte order and a word count equal to the number of 32-bit words that follow; the reply slots for chunk length, address, port and error code are reserved in front of the IPbus reply.", "quantifier": "every program of operations and all packet splits", "why_tests_cant": "The word count is patched into the packet at dispatch time from state shared between packets.", "anchors": ["uhal/uhal/src/common/ProtocolControlHub.cpp: preamble, predispatch"]}
{"id": "C25", "title": "ControlHub: a reply from the wrong target or with an error code validates nothing", "statement": "If the reply's address or port differs from the target's, or its error code is non-zero, the dispatch throws the corresponding exception (timeout codes give ControlHubTargetTimeout, others ControlHubErrorCodeSet) and no memory of the packet becomes valid; otherwise validation proceeds to the IPbus reply.", "quantifier": "all 2^32 addresses, 2^16 ports, 2^16 error codes", "why_tests_cant": "The tests exercise one error code.", "anchors": ["uhal/uhal/src/common/ProtocolControlHub.cpp: validate"]}
{"id": "C26", "title": "PCIe: each reply is read from the page its request was written to, and no page is overwritten while in use", "statement": "For every sequence of dispatches, flushes and page counts, the reply read for a packet comes from the page that packet was written to; replies are consumed in request order; and a page is never written again before the reply to its previous request has been read.", "quantifier": "every sequence of writes/flushes, every number of pages, start page and in-flight limit", "why_tests_cant": "Ring-buffer indices wrap; an off-by-one shows only at particular phases of the ring.", "anchors": ["uhal/uhal/src/common/ProtocolPCIe.cpp: write, read, implementDispatch, Flush"]}
{"id": "C27", "title": "PCIe: a reply page is read only after the device has published it", "statement": "The client reads a reply page only after the device has signalled (by its published-page counter or by interrupt) that the page holds the reply to the current request.", "quantifier": "every timing of the device relative to the client, polling and interrupt mode, counter wrap-around", "why_tests_cant": "Depends on device timing.", "anchors": ["uhal/uhal/src/common/ProtocolPCIe.cpp: PCIe::read (mReadReplyPageCount, mPublishedReplyPageCount, mUseInterrupt)"]}
{"id": "C28", "title": "Page header word describes the packet exactly", "statement": "The word written in front of every PCIe/mmap packet encodes its length such that the device-side decoding rule (upper half plus lower half) yields the packet's number of words, for every packet length that fits a page.", "quantifier": "every packet length 1..65536", "why_tests_cant": "Boundary values 1 and 65536.", "anchors": ["uhal/uhal/src/common/ProtocolPCIe.cpp: write, read", "uhal/uhal/src/common/ProtocolMmap.cpp: write, read"]}
{"id": "C29", "title": "PCIe/mmap: clients in different processes never interleave on the device", "statement": "With any number of clients in any number of processes sharing a device, a client only touches the device between acquiring and releasing the session lock; when another client has used the device in between (including one that crashed in the middle), the client re-synchronises its page index and counters with the device before its next request.", "quantifier": "every interleaving of clients and every crash point", "why_tests_cant": "Needs process crashes at arbitrary points.", "anchors": ["uhal/uhal/src/common/detail/RobustSessionMutex.cpp", "uhal/uhal/src/common/ProtocolPCIe.cpp: write, Flush, dispatchExceptionHandler, connect", "uhal/uhal/src/common/ProtocolMmap.cpp"]}
{"id": "C30", "title": "mmap: a request write touches only its own page", "statement": "Writing a request page through the mmap transport changes exactly the bytes of the packet (and its length word) in the addressed page and nothing else, and every access lies inside the mapped window.", "quantifier": "every page, packet length, page size and offset", "why_tests_cant": "The overwritten neighbour only matters at odd packet lengths / page sizes.", "anchors": ["uhal/uhal/src/common/ProtocolMmap.cpp: Mmap::File::write, Mmap::File::read"]}
{"id": "C31", "title": "The max_in_flight URI attribute is honoured", "statement": "The number of packets a PCIe or mmap client leaves unanswered never exceeds the max_in_flight attribute given in the URI.", "quantifier": "every attribute value, every sequence of dispatches", "why_tests_cant": "Requires a device that answers late.", "anchors": ["uhal/uhal/src/common/ProtocolPCIe.cpp: implementDispatch, connect", "uhal/uhal/src/common/ProtocolMmap.cpp: implementDispatch, connect"]}
{"id": "C32", "title": "Node addresses are the sum of the address offsets along the path", "statement": "The absolute address of every node equals the sum modulo 2^32 of the address attributes on the path from the root to the node; including a sub-tree from another address file gives the same addresses, modes, masks and permissions as writing the sub-tree inline.", "quantifier": "every address table tree of any depth and shape", "why_tests_cant": "Trees of arbitrary shape; addresses are recomputed for nested modules.", "anchors": ["uhal/uhal/src/common/NodeTreeBuilder.cpp: setAddr, calculateHierarchicalAddresses, getNodeTree, CallBack"]}
{"id": "C33", "title": "Listing and looking up nodes agree", "statement": "getNodes() lists every descendant exactly once, parents before children, and for every listed path getNode(path) returns precisely the node whose path was listed; hasNode(p) is true exactly when getNode(p) does not throw.", "quantifier": "every tree whose sibling ids are unique (and characterisation when not), every query string", "why_tests_cant": "Trees and query strings are unbounded.", "anchors": ["uhal/uhal/src/common/Node.cpp: const_iterator::next, getNodes, getNode, hasNode, getRelativePath, getPath"]}
{"id": "C34", "title": "Access permissions are enforced before anything reaches the client", "statement": "Reading through a node without read permission, writing through a node without write permission, and writing a masked node that is not also readable throw, and no transaction is queued; permitted accesses queue exactly the transaction for the node's address and mask.", "quantifier": "every node, operation and argument", "why_tests_cant": "All combinations of permission, mode, mask and operation.", "anchors": ["uhal/uhal/src/common/Node.cpp: read, write, readBlock, writeBlock, readBlockOffset, writeBlockOffset"]}
{"id": "C35", "title": "Block accesses stay inside the declared block", "statement": "A block access through a node declared with a size never touches an address outside [address, address+size), for every offset and length; out-of-range requests throw and queue nothing.", "quantifier": "every size, offset and length (32-bit)", "why_tests_cant": "Wrap-around of offset+length happens only for huge values.", "anchors": ["uhal/uhal/src/common/Node.cpp: readBlock, writeBlock, readBlockOffset, writeBlockOffset"]}
{"id": "C36", "title": "The overlap report is sound and complete", "statement": "The address-collision report lists a pair of nodes if and only if their address ranges intersect and they are not harmlessly masked apart or a register and its own bit-fields.", "quantifier": "every tree", "why_tests_cant": "The sweep relies on sorting and early loop exit; completeness is a statement about all pairs in all trees.", "anchors": ["uhal/uhal/src/common/detail/utilities.cpp: getAddressOverlaps", "uhal/uhal/src/common/Node.cpp: isChildOf"]}
{"id": "C37", "title": "Address-table attribute rules select the right kind of node", "statement": "An XML node is handled by a rule exactly when all the rule's required attributes are present and none of its forbidden ones is; with several candidates the one with strictly most requirements is used, otherwise the parse is refused with the documented exception; unknown attributes are refused.", "quantifier": "every rule set with at most 64 distinct attribute names, every attribute list", "why_tests_cant": "All subsets of attributes and all rule sets.", "anchors": ["uhal/uhal/include/uhal/TemplateDefinitions/XmlParser.hxx: Parser::addRule, Parser::operator()", "uhal/uhal/src/common/NodeTreeBuilder.cpp: NodeTreeBuilder::NodeTreeBuilder"]}
{"id": "C38", "title": "Numeric attributes are parsed exactly", "statement": "A numeric address-table attribute is accepted if and only if it is a non-empty decimal number, or a hexadecimal number introduced by 0x, 0X, x or X, of at most ten digits and value below 2^32, and then yields exactly that value; all other strings throw.", "quantifier": "every string", "why_tests_cant": "All strings.", "anchors": ["uhal/uhal/src/common/utilities/xml.cpp: GetXMLattribute(..., uint32_t&)"]}
{"id": "C39", "title": "Device URIs print and parse consistently", "statement": "For every URI made of allowed characters, parsing its printed form returns the same protocol, host, port, path, extension and arguments; a malformed URI never yields a client for a protocol it does not name.", "quantifier": "every URI value / every string", "why_tests_cant": "All strings.", "anchors": ["uhal/grammars/src/common/URIGrammar.cpp: URIGrammar", "uhal/grammars/src/common/URI.cpp: toString", "uhal/uhal/src/common/ClientFactory.cpp: getClient"]}
{"id": "C40", "title": "Connection files never silently redefine a device", "statement": "After loading any list of connection files, each device id refers to the first definition encountered; a later definition with the same id and different uri or address table makes construction throw; a repeated identical definition is ignored; a file given twice is read once; the outcome does not depend on entries with other ids.", "quantifier": "every sequence of files and entries", "why_tests_cant": "All sequences.", "anchors": ["uhal/uhal/src/common/ConnectionManager.cpp: CallBack, getDevice, getDevices"]}
{"id": "C41", "title": "Copying a node tree yields an equal, independent tree", "statement": "A cloned node tree answers every query (paths, addresses, masks, modes, sizes, permissions, tags, parameters, firmware info, lookups) exactly as the original.", "quantifier": "every tree, copy construction and assignment", "why_tests_cant": "All trees and all attributes.", "anchors": ["uhal/uhal/src/common/Node.cpp: Node(const Node&), operator=, clone"]}
{"id": "C42", "title": "ControlHub: requests are executed exactly once by an IPbus 2.0 target over a lossy network", "statement": "However request and reply datagrams between the ControlHub and an IPbus 2.0 target are lost, the target executes each client request packet at most once and in order, and every reply forwarded to a client is the target's reply to that client's own packet, with the client's original packet header.", "quantifier": "every loss pattern, every number of packets in flight, packet id wrap-around", "why_tests_cant": "Loss patterns and id wrap-around are unbounded.", "anchors": ["controlhub/src/ch_device_client.erl: send_request, forward_reply, recover_from_timeout, increment_pkt_id, decrement_pkt_id", "uhal/tests/src/common/DummyHardware.cpp: control_packet_header, resend_packet_header, status_packet_header"]}
{"id": "C43", "title": "Statistics survive clear()", "statement": "The time-interval statistics report the minimum, maximum and mean of the measurements added since construction or the last clear(), the latest five measurements, and clear() never touches an empty queue.", "quantifier": "every sequence of add and clear", "why_tests_cant": "All sequences, in particular clear() after more than five measurements.", "anchors": ["uhal/uhal/src/common/utilities/TimeIntervalStats.cpp: add, clear, mean"]}
{"id": "C44", "title": "SIGBUS protection always restores the previous signal state", "statement": "Whatever happens - normal completion, SIGBUS during access, construction refused because SIGBUS was not blocked - the thread's signal mask and the process's SIGBUS handler after the guard is gone are those from before.", "quantifier": "every outcome and sequence of guard uses", "why_tests_cant": "Requires signals at specific points.", "anchors": ["uhal/uhal/src/common/SigBusGuard.cpp: SigBusGuard, ~SigBusGuard, protect, handle"]}
{"id": "C45", "title": "No program of client calls runs into undefined behaviour", "statement": "For every program of client calls on any configuration satisfying the stated minimum sizes, every call terminates with a result or one of the documented exceptions: no write beyond the end of a send buffer, no out-of-range shift, no endless block-splitting loop, no access to a missing buffer.", "quantifier": "every program, every transport behaviour (including failing dispatches anywhere), every legal configuration, both protocol versions", "why_tests_cant": "Undefined behaviour is invisible to tests until it corrupts something; reaching it depends on the whole call history.", "anchors": ["uhal/uhal/src/common/ClientInterface.cpp", "uhal/uhal/src/common/ProtocolIPbusCore.cpp", "uhal/uhal/src/common/Buffers.cpp"]}
{"id": "C46", "title": "UDP: a reply never overflows the receive memory", "statement": "The number of bytes the UDP client lets the socket write into its receive memory never exceeds the size of that memory, although IPbus 1.3 padding can make the expected reply larger than the configured maximum payload.", "quantifier": "every program, both protocol versions, every payload size below 2^32 - 20", "why_tests_cant": "Depends on the exact sizes of all the operations packed together and on padding.", "anchors": ["uhal/uhal/src/common/ProtocolUDP.cpp: UDP, read", "uhal/uhal/src/common/ProtocolIPbus.cpp: predispatch"]}
{"id": "C47", "title": "The cache of address files is transparent", "statement": "A tree (or exception) obtained from the node tree builder is the same whether files come from the cache or are read again, and does not depend on which trees were built before.", "quantifier": "every set of address files, every sequence of earlier calls, every file expression", "why_tests_cant": "The order of calls and the nesting of files are unbounded.", "anchors": ["uhal/uhal/src/common/NodeTreeBuilder.cpp: getNodeTree, CallBack, build"]}
{"id": "C48", "title": "Building a node tree comes to an end", "statement": "Building a node tree from address files either returns a tree or throws; it never goes on for ever.", "quantifier": "every set of address files, including files that include each other", "why_tests_cant": "Inclusion depth is unbounded; circular inclusion exhausts the stack instead of failing an assertion.", "anchors": ["uhal/uhal/src/common/NodeTreeBuilder.cpp: getNodeTree, CallBack, moduleNodeCreator"]}
{"id": "C49", "title": "Lists of files are read as written", "statement": "A semicolon-separated list of file expressions is parsed into exactly the protocols and names that were written, in their order; a list that is not of this form makes the parser throw.", "quantifier": "every list of protocols and file names", "why_tests_cant": "Strings are unbounded, and the grammar skips white space and ignores what it could not parse, so that most wrong inputs do not fail visibly.", "anchors": ["uhal/grammars/src/common/SemicolonDelimitedUriListGrammar.cpp: SemicolonDelimitedUriListGrammar", "uhal/uhal/src/common/utilities/files.cpp: ParseSemicolonDelimitedUriList"]}
{"id": "C50", "title": "ControlHub: every message of a client is answered by one message", "statement": "For every message with packets that a client sends to the ControlHub, the ControlHub sends back exactly one message, in the order of the client's messages, and it contains exactly one answer to each packet in the order of the packets: what that target answered to that packet, or an error code.", "quantifier": "every sequence of messages of a client, every interleaving with other clients of the same target, every loss, duplication, delay or reordering of datagrams between ControlHub and target", "why_tests_cant": "The transaction manager only counts responses; whether they belong to the packets depends on the interleaving of several processes and of the network.", "anchors": ["controlhub/src/ch_transaction_manager.erl: transaction_manager_loop, unpack_and_enqueue, enqueue_request", "controlhub/src/ch_device_client.erl"]}
{"id": "C51", "title": "Client and ControlHub understand each other", "statement": "The ControlHub reads from the bytes a client writes to the socket exactly the packets and the target address that the client meant; the client finds in the message it gets back, for each of its packets in order, the reply of the target to that packet or the error code of the ControlHub; it accepts the message exactly if there is no error code, and reports the first error code with the exception that belongs to it.", "quantifier": "every program, address, port and packet size, every grouping of packets into messages, every error code, every behaviour of other clients and of the network between ControlHub and target", "why_tests_cant": "Client and ControlHub are written in different languages with different byte orders and are tested together only with a few targets on one machine.", "anchors": ["uhal/uhal/src/common/ProtocolControlHub.cpp: preamble, predispatch, validate", "uhal/uhal/src/common/ProtocolTCP.cpp: write, read_callback", "controlhub/src/ch_transaction_manager.erl: unpack_and_enqueue, transaction_manager_loop"]}
{"id": "C52", "title": "ControlHub: one device client per target", "statement": "At no time do two device clients run for the same target. A process that asks for a target gets the device client started for exactly this target, registered at that moment, or is told that the target is blocked, which happens exactly for targets the allowlist forbids; every question is answered exactly once. Once all messages are handled, the index holds exactly the device clients that run.", "quantifier": "every number of asking processes, every interleaving of questions, registrations, failed starts, ends of device clients and delayed exit signals", "why_tests_cant": "Races between look-up, registration and exit signals depend on the scheduling of Erlang processes.", "anchors": ["controlhub/src/ch_device_client_registry.erl: get_pid, handle_call, handle_info, create_and_register_device_client"]}
{"id": "C53", "title": "ControlHub: the allowlist means what it says", "statement": "For every allowlist file in the documented format the ControlHub starts; a device is allowed exactly if some line names its IP address without a port or with its port; in enforcing mode no device client is ever started for another device and every request for it is answered as blocked; in permissive mode and without a list nothing is blocked.", "quantifier": "every file (number and order of lines, comments, blank lines, padding, leading zeros), every address and port, every execution of the registry", "why_tests_cant": "Tests use a list of a few lines with one line per address.", "anchors": ["controlhub/src/ch_config.erl: init, parse_device_allowlist, get_device_access_status", "controlhub/src/ch_device_client_registry.erl: get_pid"]}
{"id": "C54", "title": "Descriptive attributes of nodes are kept as written", "statement": "Every name=value of a `parameters` or `fwinfo` attribute can be looked up in the node under its name with the value written first; class, tags and description are those written; for an included file the including element's class and parameters take precedence, the included file's firmware information does, and tags and descriptions are put together; a text of another form is refused.", "quantifier": "every text of the attributes, every set of address files with any depth of inclusion", "why_tests_cant": "Texts are unbounded, and the code ignores whether and how far the parser got, so that wrong texts do not fail visibly.", "anchors": ["uhal/grammars/src/common/NodeTreeParametersGrammar.cpp: NodeTreeParametersGrammar", "uhal/grammars/src/common/NodeTreeFirmwareInfoAttributeGrammar.cpp: NodeTreeFirmwareinfoAttributeGrammar", "uhal/uhal/src/common/NodeTreeBuilder.cpp: setPars, setFirmwareInfo, setClassName, setTags, setDescription"]}
{"id": "C55", "title": "ControlHub: the whole life of a device client", "statement": "Every request cast to a device client, from the very first (on account of which the process asks the target what it is) to the end of the process, is answered exactly once, also those still in the mailbox when it gives up; without replies from the target it gives up after a bounded number of timeouts; it never fails to match a message. With an IPbus 2.0 target, execution exactly once and in order, and the pairing of replies with clients, hold from the first request on.", "quantifier": "every sequence of requests of any number of clients, replies (including garbage) and timeouts; every loss, duplication, delay and reordering of datagrams", "why_tests_cant": "The first exchange and the end of the process each happen once per process, in races with requests of other clients.", "anchors": ["controlhub/src/ch_device_client.erl: handle_cast, get_device_status, device_client_loop, reply_to_all_pending_requests_in_msg_inbox, parse_ipbus_packet"]}
{"id": "C56", "title": "ControlHub: requests to IPbus 1.3 targets", "statement": "With an IPbus 1.3 target (no packet IDs), each request is sent unchanged and executed at most once, in the order in which the requests were cast, and every reply that is forwarded is the target's reply to the request of the client that gets it.", "quantifier": "every sequence of requests of any number of clients, every loss of datagrams, every timing and timeout, every target behaviour (exec)", "why_tests_cant": "Without packet IDs the pairing of replies with clients rests on timing alone.", "anchors": ["controlhub/src/ch_device_client.erl: send_request, forward_reply, recover_from_timeout (IPbus 1.3 clauses), get_device_status"]}
{"id": "C57", "title": "Threads may share a client", "statement": "Calls of several threads on one client take effect one at a time, each between its call and its return, in an order that contains the order of each thread's calls; the threads never block one another for ever. When a thread's dispatch returns without exception, everything it has asked for is valid, and with a target that executes well-formed packets the values are those of the sequential execution of all calls in that order.", "quantifier": "every number of threads, every program of each, every interleaving, every behaviour of target and network, every transport (order and progress)", "why_tests_cant": "Interleavings of threads are chosen by the scheduler; test_multithreaded.cpp runs ten threads with one target that never fails.", "anchors": ["uhal/uhal/src/common/ClientInterface.cpp: dispatch, write, writeBlock, read, readBlock, rmw_bits, rmw_sum, dispatchExceptionHandler, deleteBuffers", "uhal/uhal/src/common/ProtocolIPbusCore.cpp: readConfigurationSpace"]}
{"id": "C58", "title": "Errors name the nodes concerned", "statement": "The text about the address in the exception for a bad response code names exactly the nodes that stand for this address, each once: none, the path of the only one, the paths of all relative to the deepest node above them all (or in full if this is the root), or their number if they are more than the limit.", "quantifier": "every node tree with good ids, every address, every limit", "why_tests_cant": "Trees are unbounded; the text is only seen when hardware fails, and is checked in tests for one address file.", "anchors": ["uhal/uhal/src/common/detail/utilities.cpp: getAddressDescription", "uhal/uhal/src/common/Node.cpp: getLineage, getPath", "uhal/uhal/src/common/ProtocolIPbusCore.cpp: IPbusCoreResponseCodeSet"]}
{"id": "C59", "title": "Devices can be copied", "statement": "Calls on the nodes of an HwInterface go to the client of this HwInterface, and its nodes are those of the address table it was made for, whatever has been done with HwInterface objects before: construction, copies, assignments, destruction.", "quantifier": "every history of constructions, copies, assignments and destructions, every placement of objects in memory, every node tree", "why_tests_cant": "Nodes hold plain pointers to their HwInterface; a pointer to a destroyed object usually still finds the old contents in a test.", "anchors": ["uhal/uhal/src/common/HwInterface.cpp: HwInterface, claimNode", "uhal/uhal/src/common/Node.cpp: Node(const Node&), getClient, read, write", "uhal/uhal/include/uhal/HwInterface.hpp: HwInterface"]}
{"id": "C60", "title": "From the address table to the target", "statement": "A program that names nodes by their ids performs exactly the word accesses that the address files declare for these ids (address, mask, permission, mode, size), in the order of the calls, shows the user exactly the values these accesses give, and refuses exactly the calls that the table does not allow, leaving target and other calls untouched.", "quantifier": "every set of address files, every program of calls on nodes, every conforming target, every packet size and schedule, all transports", "why_tests_cant": "Combines files, tree construction, lookup, splitting into packets, transport and extraction of fields; a test checks one address file and a handful of nodes.", "anchors": ["uhal/uhal/src/common/HwInterface.cpp: getNode, dispatch", "uhal/uhal/src/common/Node.cpp: getNode, read, write, readBlock, writeBlock, readBlockOffset, writeBlockOffset", "uhal/uhal/src/common/NodeTreeBuilder.cpp: getNodeTree", "uhal/uhal/src/common/ClientInterface.cpp: dispatch"]}
{"id": "C61", "title": "The firmware decoder selects the declared slave", "statement": "If the generator of the firmware's address decoder writes a file for an address table, the slaves in it are exactly the outermost endpoints of the table, each has its own number under its own name, the numbers fit the select signal, every word of every node of an endpoint selects the slave of this endpoint, and no leaf of the table is outside of all endpoints. Tables that can be decoded are not refused.", "quantifier": "every address table, every address of 32 bits, every arrangement of groups and endpoints", "why_tests_cant": "The generated logic compares only some of the address bits; a test simulates one table and a few addresses.", "anchors": ["uhal/tools/scripts/gen_ipbus_addr_decode", "uhal/tools/etc/uhal/tools/ipbus_addr_decode.vhd"]}
{"id": "C62", "title": "A program through a shared ControlHub", "statement": "A program of client calls over TCP through a ControlHub, in which no call fails, shows the user what the calls give when they are performed one at a time on the target's memory, with packets of other clients executed only between two word accesses and never inside a read-modify-write; the target's memory at the end is the one after all packets. Clients that use other registers are not noticed.", "quantifier": "every program, every packet and chunk size, every schedule of the client's threads, every behaviour of the network between ControlHub and target (loss, duplication, reordering within the limits of C42), every set of packets of other clients and every interleaving with them", "why_tests_cant": "Three programs (uHAL, ControlHub, target) and two networks take part; a test runs one interleaving, and lost datagrams hardly ever occur in it.", "anchors": ["uhal/uhal/src/common/ProtocolTCP.cpp", "uhal/uhal/src/common/ProtocolControlHub.cpp", "uhal/uhal/src/common/ClientInterface.cpp: dispatch", "controlhub/src/ch_transaction_manager.erl", "controlhub/src/ch_device_client.erl"]}
{"id": "C63", "title": "Programs over UDP through an unreliable network", "statement": "In a program over UDP in which no call fails, the reply that the client takes for a packet is the target's reply to that packet, each packet is executed exactly once and in the order of the calls, so that the user sees what the calls give one at a time: however the network between loses, duplicates, delays and reorders datagrams, it leads to a failed call and never to wrong data.", "quantifier": "every program, every packet size, every schedule of the client's threads, every history of the network (which copies of which datagrams arrive when, in both directions), every conforming target", "why_tests_cant": "Loss, duplication and reordering do not occur on the loopback interface that the tests use.", "anchors": ["uhal/uhal/src/common/ProtocolUDP.cpp", "uhal/uhal/src/common/ProtocolIPbus.cpp: getPreamble, validate", "uhal/uhal/src/common/ProtocolIPbusCore.cpp: validate", "uhal/tests/src/common/DummyHardware.cpp: AnalyzeReceivedAndCreateReply"]}
{"id": "C64", "title": "Texts of exceptions", "statement": "The text that what() shows is exactly what has been appended to the exception (directly or through log), in order, or its description if nothing has been; copies and assignments carry the text over, and no memory outside of the text's block is written.", "quantifier": "every sequence of constructions, appends, copies, assignments, calls of what and destructions, every text", "why_tests_cant": "Texts are built from user input (ids, URIs, file names) of any length; a write of one byte past the end of a block is not noticed by a test.", "anchors": ["uhal/log/src/common/exception.cpp", "uhal/log/include/uhal/log/log.hxx: log(exception::exception&, ...)", "uhal/uhal/src/common/Node.cpp: getNode"]}
{"id": "C65", "title": "Numbers in messages", "statement": "An integer in a message is written so that reading it back gives the integer: binary, decimal and hexadecimal, with fixed width (exactly the digits of the type, zeros up to the width) or variable width (no zeros in front), with its sign, without leaving the buffer or the table of digits.", "quantifier": "every integer type, every value, every width", "why_tests_cant": "2^64 values for each format; a test prints a few.", "anchors": ["uhal/log/include/uhal/log/log_inserters.integer.hxx", "uhal/log/src/common/log_inserters.integer.cpp", "uhal/uhal/src/common/ProtocolIPbusCore.cpp: IPbusCoreResponseCodeSet"]}
{"id": "C66", "title": "Log output", "statement": "The log consists of complete messages, whatever threads write at the same time; the messages of a thread appear in its order, and the time stamps do not go back. A message is written exactly if its level is at least as severe as the level set last (Info at the beginning, none after disableLogging, or by the first letter of the environment variable) and has not been excluded when compiling. Threads do not wait for each other forever.", "quantifier": "every number of threads, every program of log calls and changes of the level, every schedule, every set of excluded levels", "why_tests_cant": "Interleavings of threads inside a message and between the flags of the levels are not reached by tests.", "anchors": ["uhal/log/src/common/log.cpp", "uhal/log/src/common/LogLevels.cpp", "uhal/log/include/uhal/log/log.hxx: log"]}
{"id": "C67", "title": "The client for a URI", "statement": "The client that is made for a URI addresses the host, device files and target that the URI names and has the settings that its arguments give (the last value of each; the defaults where nothing is said); the messages of a ControlHub client carry the four bytes of the target's address and the two of its port. A URI that is not accepted leads to an exception and not to a client or a crash, and settings that are accepted leave the client with enough memory for its packets.", "quantifier": "every URI of the built-in protocols, every list of arguments, every IPv4 address and port, every result of name resolution, every program run with the client", "why_tests_cant": "Arguments of URIs are free text; no test gives a client an argument that it does not accept.", "anchors": ["uhal/uhal/src/common/ProtocolUDP.cpp: UDP", "uhal/uhal/src/common/ProtocolTCP.cpp: TCP", "uhal/uhal/src/common/ProtocolControlHub.cpp: ExtractTargetID, ControlHub", "uhal/uhal/src/common/ProtocolPCIe.cpp: PCIe", "uhal/uhal/src/common/ProtocolMmap.cpp: Mmap", "uhal/uhal/src/common/ClientFactory.cpp: getClient"]}
{"id": "C68", "title": "Processes and statistics of the ControlHub", "statement": "While the ControlHub runs there is exactly one process that waits for the next client, or exactly one order to start one. The statistics server does not crash and can always report. Once all messages are handled, the report shows as connections the number of clients that were accepted, as active the number that are being served (provided no transaction manager has crashed), as peak the largest number of active clients there has been, and lists the living transaction managers and device clients once each; the counters of the living and of the ended ones add up to all that was ever counted, nothing is lost or counted twice. Each transaction manager counts as requests the packets it has handed to device clients, as answers those in the messages to its client, their difference being the packets in flight and the answers that wait for others; a message counts as malformed exactly if it is not a sequence of packets.", "quantifier": "every history of connections, failures of accept and peername, messages of clients, responses, send failures, starts and ends of device clients, in every order in which listener and statistics server handle their messages", "why_tests_cant": "Asynchronous messages between many processes; the tests start a few clients and never look at the statistics.", "anchors": ["controlhub/src/ch_tcp_listener.erl", "controlhub/src/ch_stats.erl", "controlhub/src/ch_transaction_manager.erl: start_link, tcp_acceptor, tcp_proc_init, tcp_proc_loop, transaction_manager_loop"]}
{"id": "C69", "title": "From the connection file to the target", "statement": "A device gotten by its id from a connection manager has the client for the URI and the node tree for the address table that the connection files give for this id, whatever devices were gotten before; an id that no file defines is refused. A program that names nodes of this device by their ids does to the target at the address and port in the URI, and sees, what the declared address table says: each call performs its word accesses in order, once each, also through a ControlHub that others use (whose packets are executed between word accesses) and through unreliable networks.", "quantifier": "every set of connection and address files, every URI of the built-in IPbus transports, every sequence of calls of getDevice, every program, every schedule of the client, the ControlHub and the network", "why_tests_cant": "Needs all layers at once, including a network that loses, repeats and reorders datagrams and other clients on the same ControlHub.", "anchors": ["uhal/uhal/src/common/ConnectionManager.cpp: getDevice", "uhal/uhal/src/common/NodeTreeBuilder.cpp: getNodeTree", "uhal/uhal/src/common/ClientFactory.cpp: getClient", "uhal/uhal/src/common/HwInterface.cpp: getNode, dispatch", "controlhub/src/ch_transaction_manager.erl", "controlhub/src/ch_device_client.erl"]}
{"id": "C70", "title": "Packet inspectors", "statement": "The inspectors show packets as they are. For every well-formed request packet with at least one transaction, in particular for every packet that a client sends, analyze returns true, has consumed all words and logs exactly one line for each word, in order and with its value: the packet header with the packet id, then each transaction with its kind, id, size, address and data; nothing is reported as an error. The same holds for replies whose headers announce the data that follows, in particular for those of the test target. analyze ends on every sequence of words.", "quantifier": "every request packet and every reply of both protocol versions, every program of client calls, both settings of aContinueOnError; for termination all sequences of words and all overriding virtual functions", "why_tests_cant": "The inspectors only run at log level Debug in the test target; no test looks at their output.", "anchors": ["uhal/uhal/src/common/IPbusInspector.cpp", "uhal/uhal/include/uhal/IPbusInspector.hpp", "uhal/tests/src/common/DummyHardware.cpp: AnalyzeReceivedAndCreateReply"]}
{"id": "C71", "title": "The test target is an IPbus target", "statement": "The dummy hardware, on which all tests of uHAL and the ControlHub rest, behaves as an IPbus target: a control packet with the next packet id, or with id 0, is executed once, its transactions in order, and is answered with one successful header and the data for each transaction; control packets with other ids are ignored and change nothing; a status request is answered with the size and number of buffers and the next id; a request to send a reply again is answered with that reply if it is among the last five, otherwise not at all. Replies have the byte order of the target (status and resend requests are big-endian always). Over TCP each answer is preceded by its length. No packet ends the program or is answered with anything else.", "quantifier": "every sequence of packets, both protocol versions, both byte orders, UDP and TCP, every process id", "why_tests_cant": "The dummy hardware is what the tests test with; nothing tests it.", "anchors": ["uhal/tests/src/common/DummyHardware.cpp", "uhal/tests/include/uhal/tests/DummyHardware.hpp", "uhal/tests/src/common/UDPDummyHardware.cpp", "uhal/tests/src/common/TCPDummyHardware.cpp", "uhal/uhal/src/common/IPbusInspector.cpp"]}
{"id": "C72", "title": "Files and web pages arrive as they are", "statement": "Every file that an expression names reaches the callback once, in order, with exactly its contents: a local file with its bytes, a web page with the body of the response if the server answers with status 200. In every other case (no matching file, a file that cannot be read, another status, a connection that fails or breaks off, another protocol) the caller gets one of uHAL's exceptions, and nothing is taken for a file that is none. Responses of any length are read without writing outside the buffer.", "quantifier": "every expression and list of files, every file system, every response of a server", "why_tests_cant": "The tests open a few local files; no test talks to a web server.", "anchors": ["uhal/uhal/src/common/utilities/files.cpp", "uhal/grammars/src/common/HttpResponseGrammar.cpp", "uhal/uhal/src/common/ConnectionManager.cpp: ConnectionManager"]}
{"id": "C73", "title": "A program through a ControlHub to an IPbus 1.3 target", "statement": "A program of client calls through a ControlHub to an IPbus 1.3 target, in which no call fails, shows the user what the calls give one at a time on the target: each packet of the program is executed once, in order, the user sees the replies of the target to exactly these packets, and between two word accesses only whole packets of other clients are executed, each at most once and in the order in which the ControlHub got them. If a packet is lost, a call fails with the error that the ControlHub reports. The messages of the ControlHub answer those of the client one by one, packet by packet.", "quantifier": "every program of client calls, every schedule of the client, every target with IPbus 1.3, every behaviour of the other clients of the ControlHub and of the network between ControlHub and target", "why_tests_cant": "IPbus 1.3 has no packet ids; what protects a client against the reply to another one is only that nothing is late. Losses and delays between ControlHub and target are not under the control of a test.", "anchors": ["controlhub/src/ch_device_client.erl: send_ipbus_1_3_packet, handle_cast", "controlhub/src/ch_transaction_manager.erl", "uhal/uhal/src/common/ProtocolControlHub.cpp", "uhal/uhal/src/common/ProtocolTCP.cpp", "uhal/uhal/src/common/ProtocolIPbusCore.cpp: validate"]}
{"id": "C74", "title": "Datagrams from elsewhere do not disturb a device client", "statement": "Whatever datagrams arrive at the socket of a device client from other addresses than that of its target, and in whatever order its two processes find their messages: the device client goes on, each request that reaches it is answered once or still waits, the target executes each request once and in order, and each client gets the reply of the target to its request, or an error, as without them. Messages that the present receive does not match stay in the mailbox and do no harm later.", "quantifier": "every sequence of requests, of datagrams from the target (lost, repeated, late) and from elsewhere, every order of the steps of the UDP process, the device client and the network, IPbus 2.0 and 1.3", "why_tests_cant": "A test has no strangers who send datagrams to the ephemeral port of a device client at the wrong moment, and no control over the order in which two Erlang processes read their mailboxes.", "anchors": ["controlhub/src/ch_device_client.erl: init, handle_cast, device_client_loop, get_device_status, recover_from_timeout, handle_info, udp_proc_init, udp_proc_loop, udp_send"]}
{"id": "C75", "title": "The PCIe test target answers every request", "statement": "Whatever clients of the PCIe test target do, together or alone: the target takes the requests out of the FIFO one by one, whole, answers each one with the reply that an IPbus target gives, in turn, on the page that the client expects, and publishes no page before it is complete. What a client reads is the reply to its own request, never that to another one, never half of it, and no reply is read twice. The target does not get stuck: it answers all requests in a bounded number of steps. A program of client calls shows the user what the calls give one at a time on the target's memory.", "quantifier": "every number of clients, every interleaving of their steps with those of the target (FIFO, page header, page, status words), every program of client calls, every packet", "why_tests_cant": "The target is a thread that tests run with and nothing tests; the order in which a client and the target touch the file and the FIFO is up to the scheduler.", "anchors": ["uhal/tests/src/common/PCIeDummyHardware.cpp", "uhal/tests/src/common/DummyHardware.cpp: AnalyzeReceivedAndCreateReply", "uhal/uhal/src/common/ProtocolPCIe.cpp: connect, write, read, implementDispatch, Flush"]}
{"id": "C76", "title": "The validation test accepts memory and nothing that behaves otherwise", "statement": "The validation test (uhal_test_suite's and PerfTester's ValidationTest: random writes, reads, read-modify-writes and block transfers, then a soak test against a copy of the registers) returns true if and only if every call it makes gives what it would give on memory, for every client. Devices whose tested addresses are memory pass, whatever the random numbers are; DummyHardware passes, directly or through a ControlHub. A device that gives something else in one of the calls is rejected: the test returns false. The test stays within the addresses it is given and has no other outcome.", "quantifier": "every list of clients of both protocol versions, every URI, base address, depth, number of iterations, stream of random numbers and target that executes well-formed packets", "why_tests_cant": "It is the test that other tests rely on. A test that is always satisfied looks like a good one.", "anchors": ["uhal/tests/src/common/PerfTester_static.cpp: runValidationTest, validation_test_single_write_read, validation_test_block_write_read, validation_test_write_rmwbits_read, validation_test_write_rmwsum_read, getRandomBuffer, getRandomBlockSize, QueuedTransaction"]}
{"id": "C77", "title": "The target test script passes good targets and no others", "statement": "The script that tests IPbus 2.0 targets (status, control packet with random transactions, request to send the reply again, ping; as many rounds as it is told) ends with success only if in every round the target has reported the right status, has answered the control packet as a memory does and has sent the same reply again: the replies it expects are those of a memory, whatever it contained before, wherever the packets end. Every packet it sends is well-formed, has a transaction, accesses the tested addresses only, and like its reply has at most 1472 bytes. A target that does what it should and has memory at these addresses passes, whatever the random numbers are. The script comes to an end, reports every other answer as a bad one, and its exit status tells the outcome.", "quantifier": "every sequence of random numbers, number of iterations, packet ID to start with, and target", "why_tests_cant": "The script is a test of hardware; nothing tests the script. Its expectations depend on transactions in earlier packets, and on chance.", "anchors": ["controlhub/test_ipbus2_target.escript: test_loop, gen_trans_subseq, gen_pkt_from_head, gen_trans, send_and_check_reply, main", "uhal/tests/src/common/DummyHardware.cpp: status_packet_header"]}
{"id": "C78", "title": "The report of address overlaps is a faithful and readable file", "statement": "When an address file is read whose nodes overlap, a report is written; when none do, nothing is done. The report says which address file it is about, and has one line for every two nodes that overlap and no other lines; a line names both nodes by their paths and gives their addresses (first and last for blocks) and masks where these matter, in hexadecimal, and can be read in one way only. Reports of different address files and users are different files. Trouble with the report never makes the address table unusable.", "quantifier": "every tree of nodes, every path of the address file, every state of the file system and of the environment", "why_tests_cant": "The tests check the pairs in memory, for four small tables, and never look at the file, which is written to a directory that is different on each computer.", "anchors": ["uhal/uhal/src/common/detail/utilities.cpp: printNodeOverlapDescription, writeNodeOverlapReport", "uhal/uhal/src/common/NodeTreeBuilder.cpp: checkForAddressCollisions"]}
{"id": "C79", "title": "What is written to a stream does not depend on the stream", "statement": "The beginning of a log message tells the day, month, year of the century, time of day, microseconds and thread in decimal figures, for every time. The dump of a packet shows each byte with two hexadecimal figures, with the number of the word in front of every fourth one; it does not depend on how the packet is cut into pieces, and two different packets have different dumps. A tree of nodes is shown with one line per node, in the order of the iterators, indented by two more spaces at each level, with the addresses, masks and sizes of the nodes. All of this holds whatever formatting the stream has, and the formatting of the stream is the same afterwards.", "quantifier": "every time, thread, packet, tree of nodes and state of formatting of the stream (base, case, prefix, adjustment, fill character)", "why_tests_cant": "The tests print nodes and packets without looking at the text, and always on fresh streams. Times before 1900, and streams with manipulators of the user on them, are never used.", "anchors": ["uhal/log/src/common/log_inserters.time.cpp: print", "uhal/log/src/common/LogLevels.cpp: colour_head", "uhal/uhal/src/common/detail/PacketFmt.cpp: operator<<", "uhal/uhal/src/common/Node.cpp: stream"]}
{"id": "C80", "title": "Programs of several clients through one ControlHub happen in one common order", "statement": "Any number of clients, each with its own program, packet sizes, numbers of packets in flight and schedule of threads, use one target through one ControlHub at the same time. If no call of these clients fails, then there is one order of the word accesses of all of them, such that the accesses of each client are in the order of its program, those of one packet are next to each other, each client sees exactly what its accesses give at their places in this order, and the target ends with the memory after all of them. In particular no read-modify-write is lost: a register to which everybody only adds ends with the sum, and clients that draw numbers from it never get the same number.", "quantifier": "every number of clients, program, configuration, schedule, loss, duplication, delay and reordering of datagrams behind the ControlHub, packets of further users of the ControlHub, memory of the target", "why_tests_cant": "The tests run one program at a time. Interleavings of several of them, with losses between, cannot be listed.", "anchors": ["controlhub/src/ch_transaction_manager.erl: tcp_proc_loop", "controlhub/src/ch_device_client.erl: handle_cast", "uhal/uhal/src/common/ProtocolTCP.cpp: implementDispatch, Flush", "uhal/uhal/src/common/ProtocolControlHub.hpp: ControlHub"]}
{"id": "C81", "title": "The graphical user interface shows the registers it names, with their values", "statement": "Selecting a device or node in the tree of the GUI adds a table with exactly one row for each node at or below it, with the path of the node in its device, its address and its mask. After each turn of the monitoring thread, over any transport, the row of each readable register shows the bits of its mask of the value that this register of this device has; modules show N/A and registers that cannot be read keep 0. A table whose device did not answer is red and keeps its values.", "quantifier": "every set of devices and address tables, order of iteration of dictionaries, selected item, earlier program on the device, loss, delay and reordering of datagrams, memory of the target with registers that may be read without effect", "why_tests_cant": "There are no tests of the GUI. Names that contain one another, ids that occur twice on a path and the order of dictionaries are not tried by hand.", "anchors": ["uhal/gui/pkg/uhal/gui/utilities/hardware_monitoring.py: run, __build_tree", "uhal/gui/pkg/uhal/gui/guis/hardware_tree.py: __get_complete_id", "uhal/gui/pkg/uhal/gui/guis/hardware_table_panel.py: add_new_widget, __fill_widget, __fill_widget_nodes, update"]}
{"id": "C82", "title": "In Python a block of words is the list of its words and a word is its number", "statement": "Items, slices with any ends and steps, loops, values and texts of a validated ValVector in Python are those of the list of its words, with IndexError and ValueError where the list raises them. A validated ValWord behaves in operators as the integer it holds, on both sides. Before validation nothing is given: there is an exception.", "quantifier": "every block of words, index, slice and interleaving of a loop with uses of the client; every operator, word and operand", "why_tests_cant": "The Python tests try a few indices of short blocks with named variables. Steps below zero, ends outside of the block, operands of other types and loops over unnamed blocks are not tried.", "anchors": ["uhal/python/src/common/cactus_pycohal.cpp: getItem, getSlice, __str__, __iter__, def_buffer", "uhal/python/pkg/uhal/__init__.py: _add_int_method_to_ValWord"]}
{"id": "C83", "title": "Idle device clients of the ControlHub may be replaced without anybody noticing", "statement": "Several programs use one target through one ControlHub, as in C80. The device client of the target ends when it has nothing to do, and is replaced when the next request comes, any number of times. The clients see what they would see with one device client: results are those of one execution of all programs in some order, no addition is lost, and numbers are drawn once.", "quantifier": "every number of clients, their programs, every interleaving, replacement of device clients at every idle moment, loss and late arrival of datagrams within the bounds of C42", "why_tests_cant": "Device clients end after a pause of many seconds; tests do not wait that long, and do not send at the moment of the end.", "anchors": ["controlhub/src/ch_device_client.erl: device_client_loop, init", "controlhub/src/ch_device_client_registry.erl: handle_call", "controlhub/src/ch_transaction_manager.erl: transaction_manager_loop"]}
{"id": "C84", "title": "Nodes are of the classes that the address table names", "statement": "A node whose element names a registered class is an object of that class; one that names none is a plain node, or of the class of the outermost element of the file that it includes; one that names an unknown class is a plain node. Copies of trees keep the classes. getNode<T> gives the node of that path if it is a T, and otherwise throws an exception that tells the node's class. Every registered class can be had. A class's constructor is given the node with its address.", "quantifier": "every set of address files with any nesting of modules and any class attributes, every content of the file cache, every sequence of registrations, every tree, path and T", "why_tests_cant": "Test classes are few, have different names, and sit on plain elements; unknown classes on elements with modules, and names that two classes share, are not among them.", "anchors": ["uhal/uhal/src/common/DerivedNodeFactory.cpp: convertToClassType", "uhal/uhal/include/uhal/TemplateDefinitions/DerivedNodeFactory.hxx: add, create", "uhal/uhal/include/uhal/TemplateDefinitions/Node.hxx: getNode", "uhal/uhal/src/common/NodeTreeBuilder.cpp: plainNodeCreator, moduleNodeCreator, setClassName"]}
{"id": "C85", "title": "Device files transfer what they are asked to", "statement": "A read of a PCIe device file gives all words from the address on, or throws and gives none; a write puts all bytes at the address and changes nothing else, or throws and has put at most a part at the front. Buffers are never overrun. A request is in its page, seen as words. A device file says that it has the lock when it has it. Different devices have different names for their shared memory.", "quantifier": "every sequence of calls, addresses, sizes, contents, and behaviour of the system in each call: failure to open, allocate, seek, lock, unlock, and transfers cut short at any byte; every path", "why_tests_cant": "Test devices are small regular files or FIFOs on which system calls do not fail.", "anchors": ["uhal/uhal/src/common/ProtocolPCIe.cpp: PCIe::File::createBuffer, PCIe::File::read, PCIe::File::write, PCIe::File::lock, PCIe::File::unlock, PCIe::File::close, PCIe::getSharedMemName", "uhal/uhal/src/common/ProtocolMmap.cpp: Mmap::getSharedMemName"]}
{"id": "C86", "title": "Handlers catch the errors they are for", "statement": "A dispatch that fails throws an exception of the class made for what went wrong first, though it is found in another thread and kept through a pointer to the base class; handlers for a class apply to exactly the exceptions of classes derived from it. Handlers for ClientTimeout apply when time ran out and only then. Every exception is one of uHAL. In Python a handler for a class applies to the same exceptions as in C++.", "quantifier": "every transport, order of failures, packet and reply; every class, also those that users derive; every registered Python class", "why_tests_cant": "Tests throw and catch a few of the 73 classes, and catch most of them as the base class.", "anchors": ["uhal/log/include/uhal/log/exception.hpp: UHAL_DEFINE_DERIVED_EXCEPTION_CLASS, exception::throwAsDerivedType", "uhal/uhal/include/uhal/ProtocolIPbusCore.hpp: IPbusCoreResponseCodeSet", "uhal/uhal/src/common/ProtocolTCP.cpp: TCP::connect, TCP::write_callback, TCP::read_callback, TCP::Flush", "uhal/uhal/src/common/ProtocolUDP.cpp: UDP::connect, UDP::write_callback, UDP::read_callback, UDP::Flush", "uhal/python/src/common/exceptions.cpp: pycohal::wrap_exceptions"]}
{"id": "C87", "title": "The session mutex in shared memory survives the death of processes", "statement": "PCIe and mmap clients in any number of processes count their sessions in shared memory under a mutex. Whatever the interleaving of their instructions, and at whatever instruction processes die: the sections under the mutex happen one at a time, each as a whole, between its beginning and its end; only the start of a session by a client that dies may be left half done (counted, but not active). No session is lost in counting. When a client starts a session it finds out, from the counter and the flag it has noted, whether other clients have had sessions since (as long as there were fewer than 2^64). Nobody waits for a dead process, locking never fails, and every section ends after at most eight instructions.", "quantifier": "every number of clients and processes, every interleaving of single accesses to shared memory, death at every instruction, also of a client that has just been told of the death of another one", "why_tests_cant": "Tests run one or two processes that do not die; that the counter is read and written under the mutex cannot be seen in them.", "anchors": ["uhal/uhal/src/common/detail/RobustSessionMutex.cpp: RobustSessionMutex", "uhal/uhal/src/common/detail/SharedObject.cpp: SharedObject::SharedObject", "uhal/uhal/src/common/ProtocolPCIe.cpp: PCIe::connect, PCIe::write, PCIe::Flush", "uhal/uhal/src/common/ProtocolMmap.cpp: Mmap::connect, Mmap::write, Mmap::Flush"]}
{"id": "C88", "title": "Packets are not mixed up although their buffers are used again", "statement": "The objects that hold packets are taken from a pool, filled by the user thread, sent and matched with replies by the network thread, given back and used again. In the UDP client, for every interleaving of the threads, with failed validations, timeouts and exception handlers at any moment, an object is held by one place at a time: the pool, the user thread, a queue of the transport, the call that validates it. So packets are sent in the order and with the contents with which they were handed over, replies are put where their own packet says and validated against it, and a new packet begins empty; after an exception nothing of the earlier packets is left; the client behaves exactly as if packets were values. The same holds for PCIe and mmap clients, and for the TCP client, where the packets of a chunk are validated and given back one by one while the user thread takes objects out of the pool, unless the exception handler runs in the middle of that loop (see C21).", "quantifier": "every schedule of the user thread and the network thread, every sequence of failures, every number of packets", "why_tests_cant": "A buffer in two places shows only when two packets are in flight after an earlier failure, and then as data of another packet.", "anchors": ["uhal/uhal/src/common/ClientInterface.cpp: ClientInterface::validate, returnBufferToPool, updateCurrentBuffers, deleteBuffers, dispatchExceptionHandler", "uhal/uhal/src/common/Buffers.cpp: Buffers::clear", "uhal/uhal/src/common/ProtocolUDP.cpp: UDP<InnerProtocol>", "uhal/uhal/src/common/ProtocolTCP.cpp: TCP<InnerProtocol, nr_buffers_per_send>", "uhal/uhal/src/common/ProtocolPCIe.cpp: PCIe::read, PCIe::write, PCIe::dispatchExceptionHandler", "uhal/uhal/src/common/ProtocolMmap.cpp: Mmap::read, Mmap::write, Mmap::dispatchExceptionHandler"]}
{"id": "C89", "title": "Exception handlers of UDP and TCP clients need not be one step", "statement": "The exception handler of a UDP or TCP client takes no lock; its statements are executed while the network thread goes on. Whatever the network thread does before, between and after them, the client is clean afterwards (no exception, no packets in any queue, nothing in flight, socket closed), every schedule leads to the state to which it leads when the handler is executed in one step, and the two threads do not use a member at the same moment.", "quantifier": "every schedule, every number of failures, every placement of steps of the network thread among the statements of each handler", "why_tests_cant": "Which statement a callback falls on is decided by the scheduler, in a window of microseconds after a failure.", "anchors": ["uhal/uhal/src/common/ProtocolUDP.cpp: UDP<InnerProtocol>::dispatchExceptionHandler, CheckDeadline", "uhal/uhal/src/common/ProtocolTCP.cpp: TCP<InnerProtocol, nr_buffers_per_send>::dispatchExceptionHandler, CheckDeadline"]}
{"id": "C90", "title": "What the ControlHub prints can be read back", "statement": "The text of a report of the statistics server determines all the numbers in it, the address of every client and board, and when each board was first used; every number stands behind its words. ip_port_string, timestamp_string and print_binary_as_hex determine their arguments. The status script asks at most five times, shows each of the sixteen words of a status reply on its line, marks a bad header, shows any other reply completely, and says in its exit status whether it got a status reply.", "quantifier": "every state of a ControlHub, all numbers and addresses, every reply of any size, every pattern of lost replies", "why_tests_cant": "Tests compare a few texts; whether two different states can ever be printed alike is a question about all pairs of states.", "anchors": ["controlhub/src/ch_stats.erl: report_to_string, stats_table_to_string", "controlhub/src/ch_utils.erl: ip_port_string, timestamp_string, print_binary_as_hex, do_print_binary_as_hex, ipv4_u32_addr_to_tuple", "controlhub/scripts/ipbus2_udp_status.escript: send_status_request, analyse_status_response, analyse_status_response_word"]}
{"id": "C91", "title": "The pool of packet buffers does not grow with the number of packets", "statement": "Between two runs of the exception handler of a UDP, TCP, PCIe or mmap client every packet buffer that has been constructed stays in the pool, with the user thread, in a queue of the transport or in validation. More are constructed only when the pool is empty, so that the number constructed is at most ten more than the greatest number that were in use at the same time, however many packets are sent.", "quantifier": "every schedule of the two threads, every reply, any number of packets, from any reachable state", "why_tests_cant": "A client that loses a buffer now and then works; its memory shows it after days.", "anchors": ["uhal/uhal/src/common/ClientInterface.cpp: ClientInterface::updateCurrentBuffers, returnBufferToPool, validate", "uhal/uhal/src/common/ProtocolUDP.cpp: UDP<InnerProtocol>::write_callback, read_callback", "uhal/uhal/src/common/ProtocolTCP.cpp: TCP<InnerProtocol, nr_buffers_per_send>::write_callback, read_callback", "uhal/uhal/src/common/ProtocolPCIe.cpp: PCIe::read"]}
{"id": "C92", "title": "The script that prints registers prints their values", "statement": "uhal_inspect_registers.py prints a line for each register below the chosen node whose name matches the regular expression and that is not write-only, in the order of the names, no name twice, with the value that the device holds: the bits of the mask of the node, in hexadecimal. It leaves a device whose registers can be read without effect as it was.", "quantifier": "every address table, regular expression, device, transport and schedule in which no exchange fails", "why_tests_cant": "A wrong line is only seen by somebody who knows the value; the order and the values depend on the address table and on packing into packets.", "anchors": ["uhal/tools/scripts/uhal_inspect_registers.py: snapshot", "uhal/uhal/src/common/Node.cpp: Node::getNodes, Node::read", "uhal/python/src/common/cactus_pycohal.cpp: hex_string"]}
{"id": "C93", "title": "The result of the performance tester means what it says", "statement": "If a loop of the performance tester ends with ok, it has sent the number of requests that was asked for and taken as many replies, each of them the expected one. There are never more requests without a reply than allowed. It fails only after a wrong packet, or if a reply is missing after the time, and it ends after at most as many turns as there are requests and messages.", "quantifier": "every number of requests, every window of at least one, every expected reply, every sequence of messages and moments at which they arrive", "why_tests_cant": "Tests of a measuring tool see the figures that it prints, not which messages were counted.", "anchors": ["controlhub/unittest/ch_unittest_common.erl: udp_client_loop, tcp_client_loop, gencast_msg_client_loop", "controlhub/scripts/perf_tester.escript: main"]}
{"id": "C94", "title": "The performance tester expects the replies that targets send", "statement": "The requests of the performance tester are IPbus packets, they and their replies fit into an Ethernet frame, and the reply that the tester compares with is that of every target with memory at the addresses used, whatever it holds before.", "quantifier": "every target with memory at these addresses, every state of the target", "why_tests_cant": "The packets are literals; the dummy hardware used in tests has one of the possible contents.", "anchors": ["controlhub/scripts/perf_tester.escript: IPBUS_TXFULL_REQ, IPBUS_BOTHFULL_REQ, IPBUS_TXFULL_PRAM_REQ, IPBUS_RXFULL_PRAM_REQ, IPBUS_BOTHFULL_PRAM_REQ and the replies"]}
{"id": "C95", "title": "The Python copy of the hardware is complete", "statement": "HardwareStruct has the devices of the connection file in their order, and for each device one object for each line of its address table, with the full name and the address, mode, permission, mask, size and tags of the line. Objects are below their parent, which they name, and those with the same parent are in the order of their names.", "quantifier": "every list of devices, every tree of nodes", "why_tests_cant": "Trees in tests are small and have good names; that no node is lost or named wrongly holds for all depths only by induction.", "anchors": ["uhal/gui/pkg/uhal/gui/utilities/hardware.py: Node, IPEndPoint, HardwareStruct", "uhal/uhal/src/common/Node.cpp: getNodes, getNode"]}
{"id": "C96", "title": "The bandwidth test measures what it says", "statement": "The requests of the bandwidth test are IPbus 1.3 packets that move the number of words from which the rates are computed; after the incrementing writes the words of the memory are 0, 1, 2 and so on, and nothing else has changed. If the test ends with ok, each request was sent and answered, so that the amount of data printed was transferred.", "quantifier": "every content of the memory, every number of turns, all arrivals of replies", "why_tests_cant": "The result of a measurement is not compared with anything; lost replies are rare.", "anchors": ["controlhub/test/src/bandwidthTest.erl: runTxTest, runRxTest, runJumboTxTest, runJumboTxTestNonIncr, runJumboRxTest, runJumboRxTestNonIncr, runTest, sendReceiveLoop, generateBlockWriteBinary"]}
{"id": "C97", "title": "The C++ bandwidth tests move the data that they report", "statement": "In the bandwidth tests of the performance tester each client reads or writes the depth as often as there are turns, always at the base address, and everything is dispatched before the time is taken. The amount of data from which the rates are computed is the number of these accesses. The tests end.", "quantifier": "every number of clients, every number of turns that the option accepts, every depth and base address, with and without a dispatch in each turn", "why_tests_cant": "Runs of 2^32 turns take days; what a measuring tool counts is not compared with what was moved.", "anchors": ["uhal/tests/src/common/tools.cpp: measureReadLatency, measureWriteLatency", "uhal/tests/src/common/PerfTester.cxx: bandwidthRxTest, bandwidthTxTest"]}
{"id": "C98", "title": "The hardware emulator of the hub tests behaves as a target", "statement": "The emulated IPbus 2.0 target of the tests of the ControlHub returns each control packet with the ID that is due or with ID 0 to its sender, answers a status request with the ID that is due, answers a re-send request with the response asked for, drops other packets, and ends when it is told to. The emulated IPbus 1 target returns every packet until it is told to end.", "quantifier": "every sequence of datagrams and other messages, every sender, every content", "why_tests_cant": "The emulator is part of the tests: it is what they trust. A wrong emulator shows as a failure of the hub, or hides one.", "anchors": ["controlhub/unittest/ch_unittest_common.erl: spawn_device_emulator, device_emulator_init, device_emulator_loop"]}
{"id": "C99", "title": "The echo servers and the dummy device client of the hub tests return everything", "statement": "The UDP echo server returns every datagram to its sender. The TCP echo server returns to each client its packets in order and serves the next client when one has gone. The dummy device client answers each request exactly once, in order, more than 100 microseconds after it came, and all requests are answered in the end. The performance tester can start both servers.", "quantifier": "every sequence of messages, clients, packets and times, every mode of the sockets", "why_tests_cant": "They are run by hand, with one client; the tests trust them.", "anchors": ["controlhub/unittest/ch_unittest_common.erl: udp_echo_server_loop, tcp_echo_server_loop, tcp_recv, udp_async_send, dummy_device_client_loop", "controlhub/scripts/perf_tester.escript: main"]}
{"id": "C100", "title": "The test suite reports every failure", "statement": "The exit status of the test suite script is 0 exactly if every command of every selected section succeeds and every dummy hardware lives until it is terminated. A section is selected if the text searched for is part of its name in any case. The number of errors printed is the number of commands that failed. A hub that does not start is reported.", "quantifier": "all lists of sections and commands, all outcomes of the commands, all search texts, with and without the option to quit at the first error", "why_tests_cant": "The suite runs the tests; nobody tests that it reports a failure. Every combination of outcomes would have to be provoked.", "anchors": ["uhal/tests/scripts/uhal_test_suite.py: main part, run_cleanup_commands, skip_section, get_commands"]}
{"id": "C101", "title": "The exit codes of the hub scripts mean what is documented", "statement": "controlhub_start gives 0 exactly if the hub was down and is reached within 30 pings, 1 if it was running, 4 if it failed to start. controlhub_stop gives 0 if the hub was stopped, 1 if it was stopped already, 2 after an error in communication, 3 after a general error. controlhub_status gives 0 if the hub is up and 1 if it is down. controlhub_stats and controlhub_info give 0, 1 or 2 for success, a hub that is down, and an error in asking.", "quantifier": "every outcome of every call of nodetool, of the check of the configuration and of the launch", "why_tests_cant": "Failures of single calls in the middle of a script are not provoked; the test suite does not look at the codes.", "anchors": ["controlhub/rel/files/controlhub: start, stop, status, info, stats, get_pid", "controlhub/rel/files/nodetool: main, safe_rpc", "controlhub/scripts/controlhub_start, controlhub_stop, controlhub_status, controlhub_stats, controlhub_info"]}
{"id": "C102", "title": "The check of the configuration of the hub accepts the right files", "statement": "The check of the configuration files before the start of the ControlHub succeeds exactly if every file that is read, directly or through references, is one list and defines only parameters that the hub uses. Every parameter that the hub reads is accepted. The check ends.", "quantifier": "every set of files with any contents and references", "why_tests_cant": "Only the files that come with the hub are tried; chains and circles of references are not.", "anchors": ["controlhub/rel/files/nodetool: check_config_file", "controlhub/src/ch_config.erl: get_parameter_names, init"]}
{"id": "C103", "title": "The GUI loader opens the windows that are asked for", "statement": "The loader of the GUI opens one window for each module of the list, of the class that the module defines, with the name of the module as title. The test function says OK if each module has a class and FAILED otherwise. A call without a list gives the default GUI, a call with a list gives this list and, if asked for, the default GUI, whatever calls there were before.", "quantifier": "every list of modules with any attributes, every sequence of calls", "why_tests_cant": "The GUI is started once with its own module; modules of others and further calls are not tried.", "anchors": ["uhal/gui/pkg/uhal/gui/utilities/utilities.py: dynamic_loader", "uhal/gui/pkg/uhal/gui/guiloader.py: OnInit, loader, test"]}
