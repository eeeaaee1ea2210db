import Verif.Lemmas.Perf
/-!
# C93: the result of the performance tester means what it says

If a loop of the performance tester ends with `ok`, it has sent the number of requests that was asked for and has taken as many replies, all of them right; there are never more requests without
a reply than allowed; it fails only after a wrong packet, or if a reply is missing after the time; and it ends.

Where the code does otherwise: the loop for device clients does not look at the replies; the requests are all the same, so that a packet that comes twice stands for the reply to the next
request.
-/

set_option autoImplicit false

namespace Verif

open Perf Spec

/-- UDP. -/
theorem C93_udp (n : Nat) (max : Int) (hmax : 1 ≤ max) (reply : Pkt) (arr : List (List Msg)) : Fair n max reply arr (udpLoop reply max arr (start n)) :=
  udp_fair n max reply arr [] _ (Inv.start n max reply hmax)

/-- TCP. -/
theorem C93_tcp (n : Nat) (max : Int) (hmax : 1 ≤ max) (reply : Pkt) (arr : List (List Msg)) : Fair n max reply arr (tcpLoop reply max arr (start n)) :=
  tcp_fair n max reply arr [] _ (Inv.start n max reply hmax)

/-- UDP: there are no more turns than requests and messages. -/
theorem C93_udp_ends (n : Nat) (max : Int) (reply : Pkt) (arr : List (List Msg)) (s : St) (h : udpLoop reply max arr (start n) = .running s) : arr.length ≤ n + arr.flatten.length := by
  have := udp_ends max reply arr _ _ h
  simpa [start] using this

/-- TCP. -/
theorem C93_tcp_ends (n : Nat) (max : Int) (reply : Pkt) (arr : List (List Msg)) (s : St) (h : tcpLoop reply max arr (start n) = .running s) : arr.length ≤ n + arr.flatten.length := by
  have := tcp_ends max reply arr _ _ h
  simpa [start] using this

/-- The loop for device clients counts. `partial`: it does not look at the messages (`C93_violated_cast`). -/
theorem C93_cast_partial (n : Nat) (max : Int) (arr : List (List Msg)) (s : St) (h : castLoop max arr (start n) = .ok s) : s.sent = n ∧ s.got.length = n := by
  have := cast_count max arr _ _ h
  simp only [start, List.length_nil] at this
  omega

/-! ### Runs -/

/-- Three requests, at most two in flight; confirmations of the sends and a message from elsewhere between the replies. -/
example : udpLoop [1] 2 [[.sendStatus true], [.other, .sendStatus true], [.pkt [1]], [.pkt [1], .sendStatus true], []] (start 3) =
    .running ⟨[.other], 1, 0, 3, [.pkt [1], .pkt [1]]⟩ := by decide +kernel

example : udpLoop [1] 2 [[.sendStatus true], [.other, .sendStatus true], [.pkt [1]], [.pkt [1], .sendStatus true], [], [.pkt [1]]] (start 3) =
    .ok ⟨[.other], 0, 0, 3, [.pkt [1], .pkt [1], .pkt [1]]⟩ := by decide +kernel

example : udpLoop [1] 2 [[.sendStatus true], [.sendStatus true], []] (start 3) = .late ⟨[], 2, 1, 2, []⟩ := by decide +kernel

example : udpLoop [1] 2 [[.sendStatus true], [.sendStatus true], [.pkt [2]]] (start 3) = .wrong [2] ∧ udpLoop [1] 2 [[.sendStatus false]] (start 3) = .crash := by decide +kernel

example : tcpLoop [1] 2 [[.sendStatus true], [.sendStatus true, .pkt [1]], [.pkt [1]]] (start 2) = .ok ⟨[], 0, 0, 2, [.pkt [1], .pkt [1]]⟩ := by decide +kernel

example : tcpLoop [1] 2 [[], [.closed]] (start 2) = .crash ∧ tcpLoop [1] 1 [[], []] (start 2) = .late ⟨[], 1, 1, 1, []⟩ := by decide +kernel

/-! ### Where the code goes wrong -/

/-- Replies of device clients are not compared with the expected one: `Any` is a new variable (ch_unittest_common.erl:108, 118). -/
theorem C93_violated_cast : ∃ s, castLoop 2 [[], [], [.other], [.pkt []]] (start 2) = .ok s ∧ s.got = [.other, .pkt []] := ⟨_, rfl, rfl⟩

/-- A reply that comes twice, before the second request is sent, is taken for the reply to the second request. -/
theorem C93_violated_twice : ∃ s1 s2, udpLoop [1] 1 [[.pkt [1], .pkt [1]]] (start 2) = .running s1 ∧ s1.sent = 1 ∧ s1.box = [.pkt [1]] ∧
    udpLoop [1] 1 [[.pkt [1], .pkt [1]], []] (start 2) = .ok s2 := ⟨_, _, rfl, rfl, rfl, rfl⟩

/-- If no request may be in flight, nothing is sent, and the loop says that a reply is missing. -/
theorem C93_violated_zero : ∃ s, udpLoop [1] 0 [[]] (start 1) = .late s ∧ s.sent = 0 := ⟨_, rfl, rfl⟩

end Verif
