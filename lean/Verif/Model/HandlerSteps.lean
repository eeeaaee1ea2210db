import Verif.Model.Udp
import Verif.Model.Tcp
/-!
# The exception handlers of the UDP and TCP clients, statement by statement

`dispatchExceptionHandler` (ProtocolUDP.cpp:458-493, ProtocolTCP.cpp:593-629) takes no lock. In `Udp` and `Tcp` it is one step. Here it
is a list of statements, and the network thread may make any steps before, between and after them. The user thread does nothing else
meanwhile.

Also: which variables a statement writes, and which ones `CheckDeadline` (ProtocolUDP.cpp:410-440, ProtocolTCP.cpp:540-565) uses. Sections
of the network thread are steps as in `Udp` and `Tcp`, so that two threads using a variable at the same moment is not a step of
the model but a pair of uses (`Clash`).
-/

set_option autoImplicit false

namespace Verif

/-- Statements of the handlers, in their order. -/
inductive HStmt
  /-- `mSocket.close()`, ProtocolUDP.cpp:462-473, ProtocolTCP.cpp:595-608 -/
  | close
  /-- `NotifyConditionalVariable ( true )`, ProtocolUDP.cpp:475, ProtocolTCP.cpp:610 -/
  | notify
  /-- `delete mAsynchronousException`, ProtocolUDP.cpp:477-481, ProtocolTCP.cpp:612-616 -/
  | dropExc
  /-- `returnBufferToPool ( mDispatchQueue )`, ProtocolUDP.cpp:483, ProtocolTCP.cpp:618 -/
  | dropDispQ
  /-- `returnBufferToPool ( mReplyQueue )`, ProtocolUDP.cpp:484, ProtocolTCP.cpp:619-620 -/
  | dropReplyQ
  /-- `mPacketsInFlight = 0`, ProtocolUDP.cpp:485, ProtocolTCP.cpp:621 -/
  | zero
  /-- `mDispatchBuffers`, ProtocolUDP.cpp:487-488, ProtocolTCP.cpp:622 -/
  | dropDisp
  /-- `mReplyBuffers`, ProtocolUDP.cpp:489-490, ProtocolTCP.cpp:623 -/
  | dropReply
  /-- the end of the handler (counters of bytes; nothing else that belongs to the transport); here the ghosts begin anew -/
  | done
deriving DecidableEq, Repr

/-- The handlers, ProtocolUDP.cpp:458-493, ProtocolTCP.cpp:593-629. -/
def handlerBody : List HStmt := [.close, .notify, .dropExc, .dropDispQ, .dropReplyQ, .zero, .dropDisp, .dropReply, .done]

/-- Effect of a statement on the UDP client. -/
def Udp.stmt (u : Udp) : HStmt → Udp
  | .close => u.close
  | .notify => { u with flushDone := true }
  | .dropExc => { u with exc := none }
  | .dropDispQ => { u with dispQ := [] }
  | .dropReplyQ => { u with replyQ := [] }
  | .zero => { u with inFlight := 0 }
  | .dropDisp => { u with disp := none }
  | .dropReply => { u with reply := none }
  | .done => { u with dispatched := [], sent := [], finished := [], matched := [], rx := [] }

/-- The statements, with steps of the network thread: `es` lists those before each statement; what is left over comes after the last one. -/
def Udp.weave (c : Cfg) (maxN : Nat) : List HStmt → List (List Ev) → Udp → Udp
  | [], es, u => es.flatten.foldl (Udp.ev c maxN) u
  | s :: ss, es, u => Udp.weave c maxN ss es.tail (((es.headD []).foldl (Udp.ev c maxN) u).stmt s)

/-- Steps of a schedule. -/
inductive FAct
  | dispatch (b : Buf)
  | ev (e : Ev)
  /-- the handler, with the steps of the network thread in it -/
  | handler (es : List (List Ev))

/-- A step, as in `Udp.act`. -/
def Udp.fact (c : Cfg) (maxN : Nat) (u : Udp) : FAct → Udp
  | .dispatch b => u.act c maxN (.dispatch b)
  | .ev e => u.act c maxN (.ev e)
  | .handler es => if u.crashed then u else u.weave c maxN handlerBody es

/-- All schedules. -/
def Udp.fine (c : Cfg) (maxN : Nat) (as : List FAct) : Udp := as.foldl (Udp.fact c maxN) Udp.init

/-- Effect of a statement on the TCP client. -/
def Tcp.stmt (u : Tcp) : HStmt → Tcp
  | .close => u.close
  | .notify => { u with flushDone := true }
  | .dropExc => { u with exc := none }
  | .dropDispQ => { u with dispQ := [] }
  | .dropReplyQ => { u with replyQ := u.replyQ.map fun _ => [], stale := u.stale || !u.replyQ.isEmpty }
  | .zero => { u with inFlight := 0 }
  | .dropDisp => { u with disp := [] }
  | .dropReply => { u with reply := [] }
  | .done => { u with pc := .idle, dispatched := [], sent := [], wire := [], finished := [], matched := [], rx := [] }

/-- As `Udp.weave`. -/
def Tcp.weave (c : Cfg) (n maxN : Nat) : List HStmt → List (List TEv) → Tcp → Tcp
  | [], es, u => es.flatten.foldl (Tcp.ev c n maxN) u
  | s :: ss, es, u => Tcp.weave c n maxN ss es.tail (((es.headD []).foldl (Tcp.ev c n maxN) u).stmt s)

/-- Steps of a schedule. -/
inductive TFAct
  | act (a : TAct)
  /-- the handler, with the steps of the network thread in it -/
  | handler (es : List (List TEv))

/-- A step, as in `Tcp.act`. -/
def Tcp.fact (c : Cfg) (n maxN : Nat) (u : Tcp) : TFAct → Tcp
  | .act .handler => u
  | .act a => u.act c n maxN a
  | .handler es => if u.crashed then u else if u.pc = .thrown then u.weave c n maxN handlerBody es else u

/-- All schedules. -/
def Tcp.fine (c : Cfg) (n maxN : Nat) (as : List TFAct) : Tcp := as.foldl (Tcp.fact c n maxN) Tcp.init

/-! ## Uses of variables -/

/-- Members of the clients that the handler writes to. -/
inductive Member
  | socket
  | flushDone
  | exc
  | dispQ
  | replyQ
  | inFlight
  | disp
  | reply
deriving DecidableEq, Repr

/-- The member that a statement writes to. `mFlushDone` has a mutex of its own (ProtocolUDP.cpp, `NotifyConditionalVariable`). -/
def HStmt.writes : HStmt → Option Member
  | .close => some .socket
  | .notify => none
  | .dropExc => some .exc
  | .dropDispQ => some .dispQ
  | .dropReplyQ => some .replyQ
  | .zero => some .inFlight
  | .dropDisp => some .disp
  | .dropReply => some .reply
  | .done => none

/-- What `CheckDeadline` uses when the deadline has passed, ProtocolUDP.cpp:421-431, ProtocolTCP.cpp:547-557: it tests the buffers and
closes the socket. -/
def deadlineUses : List Member := [.disp, .reply, .socket]

/-- The network thread is about to use a member that the statement writes to: the deadline has not been reported and no callback is in
progress, so that `CheckDeadline` may run at this moment, under a lock that the handler does not take. -/
def Udp.clash (u : Udp) (s : HStmt) : Bool :=
  u.deadline == .armed && u.mid.isNone && (match s.writes with | none => false | some m => deadlineUses.contains m)

end Verif
