import Verif.Model.Validate
/-!
# Classes of exceptions

Which handlers catch the exceptions of uHAL, in C++ and in Python: the macros of /repo/uhal/log/include/uhal/log/exception.hpp:49-59 and their uses, what the transports throw from `dispatch`, and
the translation to Python, /repo/uhal/python/src/common/exceptions.cpp:16-33.

Simplifications:
* Texts are those of `ExcText`; here are classes only.
* Inheritance is single, public and non-virtual. All of pybind11 that is used is stated below: `register_exception` puts a translator in front of the others, and the first one whose `catch` applies is used;
  the last of all makes `RuntimeError` of a `std::exception`. pybind11 is not part of /repo.
* A transport's callbacks run in one thread (the `io_service` has one, ProtocolTCP.cpp:70 and ProtocolUDP.cpp:68).
-/

set_option autoImplicit false

namespace Verif.Cls

/-- The classes of uHAL (files in /repo/uhal): ClientFactory.hpp:58,61,64; ClientInterface.hpp:77,80,83,86,88,90,92,94,96; ConnectionManager.hpp:72,74; Node.hpp:65,67,69,71,73,75,77,79; NodeTreeBuilder.hpp:65,67,69,71,73,76,79; ProtocolControlHub.hpp:57,60,63,66,69,72; ProtocolIPbus.hpp:179; ProtocolIPbusCore.hpp:100,102,104; ProtocolMmap.hpp:72,74,76; ProtocolPCIe.hpp:71,73,75; ProtocolTCP.hpp:72,74,76,78; ProtocolUDP.hpp:74,76,78; RobustSessionMutex.hpp:17; SigBusGuard.hpp:52,53,54,55; ValMem.hpp:60,62; XmlParser.hpp:56,58,60,62,64,66; exceptions.hpp:14; files.hpp:60,62,64,66,68; xml.hpp:63,66; `base` is `uhal::exception::exception`, log/include/uhal/log/exception.hpp:70. -/
inductive Uhal
  | base
  | pycohalLogLevelEnumError | protocolDoesNotExist | protocolNotEnabled | failedToParseURI | pingFailed | bitsSetWhichAreForbiddenByBitMask | validationError | nullBufferException
  | packetLevelError | transactionLevelError | clientTimeout | transportLayerError | invalidURI | duplicatedUID | connectionUIDDoesNotExist | writeAccessDenied
  | readAccessDenied | noBranchFoundWithGivenUID | bulkTransferOnSingleRegister | bulkTransferRequestedTooLarge | bulkTransferOffsetRequestedForFifo | bulkTransferOffsetRequestedForSingleRegister | badNodeCast | nodeMustHaveUID
  | incorrectAddressTableFileCount | failedToOpenAddressTableFile | incrementalNodeRequiresSizeAttribute | arraySizeExceedsRegisterBound | blockAccessNodeCannotHaveChild | maskedNodeCannotHaveChild | parsingTargetURLfailed | hostnameToIPlookupFailed
  | xmlFileMissingRequiredParameters | controlHubReturnedWrongAddress | controlHubTargetTimeout | controlHubErrorCodeSet | packetHeaderMismatch | unparsableHeader | fieldsIncorrect | responseCodeSet
  | mmapTimeout | mmapInitialisationError | mmapCommunicationError | pcieTimeout | pcieInitialisationError | pcieCommunicationError | tcpTimeout | errorAtTcpSocketCreation
  | tcpConnectionFailure | asioTcpError | udpTimeout | errorAtUdpSocketCreation | asioUdpError | sigBusError | signalHandlerNotRegistered | signalMaskingFailure
  | signalNotBlocked | nonValidatedMemory | valMemImutabilityViolation | contradictoryParserRule | noActionSpecified | tooManyAttributes | unknownAttribute | ambiguousParserRules
  | noRulesPassed | mutexError | uriListParsingError | nonSupportedUriProtocol | cannotOpenFile | fileNotFound | expandingShellExpressionFailed | stringNumberWillNotFitInto32BitNumber
  | nodeAttributeIncorrectValue
deriving DecidableEq, Repr

/-- Any class: of uHAL, of the standard library or boost, of users. -/
inductive Any
  | uhal (u : Uhal)
  /-- `std::exception`, `std::runtime_error` and `boost::system::system_error` -/
  | std | runtimeError | systemError
  | user (n : Nat)
deriving DecidableEq, Repr

/-- A declaration. `throws`: the class overrides `throwAsDerivedType`. -/
structure Decl where
  name : Any
  base : Option Any
  throws : Bool
deriving DecidableEq, Repr

/-- Class and base class, bases after derived classes. Lines as for `Uhal`. -/
def bases : List (Uhal × Uhal) :=
  [(.nodeAttributeIncorrectValue, .base), (.stringNumberWillNotFitInto32BitNumber, .base), (.expandingShellExpressionFailed, .base), (.fileNotFound, .base), (.cannotOpenFile, .base),
   (.nonSupportedUriProtocol, .base), (.uriListParsingError, .base), (.mutexError, .transportLayerError), (.noRulesPassed, .base), (.ambiguousParserRules, .base),
   (.unknownAttribute, .base), (.tooManyAttributes, .base), (.noActionSpecified, .base), (.contradictoryParserRule, .base), (.valMemImutabilityViolation, .base),
   (.nonValidatedMemory, .base), (.signalNotBlocked, .base), (.signalMaskingFailure, .base), (.signalHandlerNotRegistered, .base), (.sigBusError, .transactionLevelError),
   (.asioUdpError, .transportLayerError), (.errorAtUdpSocketCreation, .transportLayerError), (.udpTimeout, .clientTimeout), (.asioTcpError, .transportLayerError), (.tcpConnectionFailure, .transportLayerError),
   (.errorAtTcpSocketCreation, .transportLayerError), (.tcpTimeout, .clientTimeout), (.pcieCommunicationError, .transportLayerError), (.pcieInitialisationError, .transportLayerError), (.pcieTimeout, .clientTimeout),
   (.mmapCommunicationError, .transportLayerError), (.mmapInitialisationError, .transportLayerError), (.mmapTimeout, .clientTimeout), (.responseCodeSet, .transactionLevelError), (.fieldsIncorrect, .transactionLevelError),
   (.unparsableHeader, .transactionLevelError), (.packetHeaderMismatch, .packetLevelError), (.controlHubErrorCodeSet, .packetLevelError), (.controlHubTargetTimeout, .clientTimeout), (.controlHubReturnedWrongAddress, .base),
   (.xmlFileMissingRequiredParameters, .base), (.hostnameToIPlookupFailed, .base), (.parsingTargetURLfailed, .base), (.maskedNodeCannotHaveChild, .base), (.blockAccessNodeCannotHaveChild, .base),
   (.arraySizeExceedsRegisterBound, .base), (.incrementalNodeRequiresSizeAttribute, .base), (.failedToOpenAddressTableFile, .base), (.incorrectAddressTableFileCount, .base), (.nodeMustHaveUID, .base),
   (.badNodeCast, .base), (.bulkTransferOffsetRequestedForSingleRegister, .base), (.bulkTransferOffsetRequestedForFifo, .base), (.bulkTransferRequestedTooLarge, .base), (.bulkTransferOnSingleRegister, .base),
   (.noBranchFoundWithGivenUID, .base), (.readAccessDenied, .base), (.writeAccessDenied, .base), (.connectionUIDDoesNotExist, .base), (.duplicatedUID, .base),
   (.invalidURI, .base), (.transportLayerError, .base), (.clientTimeout, .base), (.transactionLevelError, .base), (.packetLevelError, .base),
   (.nullBufferException, .base), (.validationError, .base), (.bitsSetWhichAreForbiddenByBitMask, .base), (.pingFailed, .base), (.failedToParseURI, .base),
   (.protocolNotEnabled, .base), (.protocolDoesNotExist, .base), (.pycohalLogLevelEnumError, .base)]

/-- The macro overrides `throwAsDerivedType` (exception.hpp:54); `IPbusCoreResponseCodeSet` is declared without the macro and does not (ProtocolIPbusCore.hpp:104-109); in the base class it is pure
virtual (exception.hpp:95). -/
def decls : List Decl :=
  (bases.map fun p => ⟨.uhal p.1, some (.uhal p.2), p.1 ≠ .responseCodeSet⟩)
    ++ [⟨.uhal .base, some .std, false⟩, ⟨.systemError, some .runtimeError, false⟩, ⟨.runtimeError, some .std, false⟩, ⟨.std, none, false⟩]

/-- A class and its bases, nearest first. Classes that are not declared have none. -/
def chain : List Decl → Any → List Any
  | [], _ => []
  | d :: ds, c =>
    if d.name = c then
      match d.base with
      | none => [c]
      | some b => c :: chain ds b
    else chain ds c

/-- `catch ( T& )` applies to an exception of class `c`. -/
def catches (ds : List Decl) (t c : Any) : Bool := (chain ds c).contains t

/-- `c` overrides `throwAsDerivedType`. -/
def overrides (ds : List Decl) (c : Any) : Bool := ds.any fun d => d.name = c && d.throws

/-- `e->throwAsDerivedType()` for `e` of class `c`, exception.hpp:54 and 95: the nearest override is called and throws a copy of its own class. -/
def rethrown (ds : List Decl) (c : Any) : Option Any := (chain ds c).find? (overrides ds)

/-- Transports. -/
inductive Net
  | udp | tcp | pcie | mmap
deriving DecidableEq, Repr

/-- What goes wrong in a dispatch. -/
inductive Cause
  /-- the socket cannot be opened or connected; `late`: because the deadline passed -/
  | connect (late : Bool)
  /-- the deadline passed before a send or a receive completed (TCP, UDP: the timer stands at `pos_infin`), or the next page was not published in time -/
  | deadline
  /-- the system reports another error in a send or a receive, or part of the bytes -/
  | io
  /-- `validate` returns an exception -/
  | returned (e : Uhal)
  /-- `validate` throws an exception of uHAL -/
  | threw (e : Uhal)
deriving DecidableEq, Repr

/-- The exception that is made, and whether it is kept in `mAsynchronousException` or `lExc` and thrown through `throwAsDerivedType`. UDP: ProtocolUDP.cpp:166-175, 214-245, 305-341, 355-370; TCP: ProtocolTCP.cpp:160-195,
259-302, 374-396, 400-431, 457-484, 489-503; PCIe: ProtocolPCIe.cpp:157-186, 561-564, 593-596, 643-657; mmap: ProtocolMmap.cpp:497-500, 544-558; `connect` of device files: ProtocolPCIe.cpp:112-116, ProtocolMmap.cpp:126-143. -/
def made : Net → Cause → Any × Bool
  | .udp, .connect _ => (.systemError, false)
  | .tcp, .connect _ => (.uhal .tcpConnectionFailure, false)
  | .pcie, .connect _ => (.uhal .pcieInitialisationError, false)
  | .mmap, .connect _ => (.uhal .mmapInitialisationError, false)
  | .udp, .deadline => (.uhal .udpTimeout, true)
  | .tcp, .deadline => (.uhal .tcpTimeout, true)
  | .pcie, .deadline => (.uhal .pcieTimeout, false)
  | .mmap, .deadline => (.uhal .mmapTimeout, false)
  | .udp, .io => (.uhal .asioUdpError, true)
  | .tcp, .io => (.uhal .asioTcpError, true)
  | .pcie, .io => (.uhal .pcieCommunicationError, false)
  | .mmap, .io => (.uhal .sigBusError, false)
  | _, .returned e => (.uhal e, true)
  | .udp, .threw _ => (.uhal .validationError, true)
  | .tcp, .threw _ => (.uhal .validationError, true)
  | .pcie, .threw _ => (.uhal .validationError, false)
  | .mmap, .threw _ => (.uhal .validationError, false)

/-- What `dispatch` throws if things go wrong as in the list, in order: after the first, callbacks return at once (ProtocolUDP.cpp:208-212, 298-303; ProtocolTCP.cpp:253-257, 366-370), and so do PCIe and mmap clients, which
throw. `Flush`: ProtocolUDP.cpp:444-453, ProtocolTCP.cpp:567-589. `dispatch` throws on what it catches, ClientInterface.cpp:175-179. -/
def thrown (ds : List Decl) (net : Net) : List Cause → Option Any
  | [] => none
  | x :: _ => if (made net x).2 then rethrown ds (made net x).1 else some (made net x).1

/-- The classes of the exceptions that `validate` returns: ProtocolIPbusCore.cpp:158-213, ProtocolIPbus.cpp:291-298, ProtocolControlHub.cpp:223-268. -/
def ofExc : Exc → Option Uhal
  | .unparsableSend => some .unparsableHeader
  | .unparsableReply => some .unparsableHeader
  | .fieldsIncorrect => some .fieldsIncorrect
  | .responseCode _ => some .responseCodeSet
  | .packetHeader => some .packetHeaderMismatch
  | .hubAddress => some .controlHubReturnedWrongAddress
  | .hubTimeout => some .controlHubTargetTimeout
  | .hubError => some .controlHubErrorCodeSet
  | .bitsForbidden => none
  | .headerType => none
  | .transport _ => none

/-- One `register_exception`: the class and the base of its class in Python, `none` for `Exception`. -/
structure Reg where
  name : Any
  pyBase : Option Any
deriving DecidableEq, Repr

/-- `wrap_exceptions`, exceptions.cpp:19-32, in order. -/
def wrapped : List Reg :=
  ⟨.uhal .base, none⟩ :: ([.nonValidatedMemory, .bulkTransferRequestedTooLarge, .writeAccessDenied, .readAccessDenied, .bitsSetWhichAreForbiddenByBitMask, .validationError, .tcpTimeout, .udpTimeout,
    .pycohalLogLevelEnumError].map fun u => ⟨.uhal u, some (.uhal .base)⟩)

/-- The translators in the order in which they are tried. -/
def translators (rs : List Reg) : List Reg := rs.foldl (fun l r => r :: l) []

/-- The class that an exception of class `c` has in Python; `none`: `RuntimeError`. -/
def translate (ds : List Decl) (rs : List Reg) (c : Any) : Option Any := ((translators rs).find? fun r => catches ds r.name c).map Reg.name

/-- A class in Python and its bases among those registered. -/
def pyChain : List Reg → Any → List Any
  | [], _ => []
  | r :: rs, c => if r.name = c then (match r.pyBase with | none => [c] | some b => c :: pyChain rs b) else pyChain rs c

/-- `except t` in Python applies to a C++ exception of class `c`. -/
def excepts (ds : List Decl) (rs : List Reg) (t c : Any) : Bool :=
  match translate ds rs c with
  | none => false
  | some p => (pyChain (translators rs) p).contains t

end Verif.Cls
