import Verif.Model.Echo

/-!
C99: the echo servers and the dummy device client of the tests of the ControlHub.
-/

set_option autoImplicit false

namespace Verif.Spec

/-- A datagram: address, port, contents. -/
structure EchoDatagram where
  ip : Nat × Nat × Nat × Nat
  port : Nat
  data : List Nat
deriving DecidableEq

/-- Addresses and ports of IPv4. -/
def EchoDatagram.Ok (d : EchoDatagram) : Prop :=
  d.ip.1 < 256 ∧ d.ip.2.1 < 256 ∧ d.ip.2.2.1 < 256 ∧ d.ip.2.2.2 < 256 ∧ d.port < 65536

/-- How the driver of the socket reads a command: two bytes of port, four of address, data. -/
def driverReads : List Nat → Option EchoDatagram
  | p1 :: p0 :: a :: b :: c :: d :: data => some ⟨(a, b, c, d), p1 * 256 + p0, data⟩
  | _ => none

/-- What a client of the TCP server does: send packets, then close. -/
def tcpSession (ps : List (List Nat)) : List Echo.TEv := ps.map .data ++ [.closed]

/-- The datagrams among the messages. -/
def datagrams : List Echo.UMsg → List EchoDatagram
  | [] => []
  | .udp ip port p :: ms => ⟨ip, port, p⟩ :: datagrams ms
  | _ :: ms => datagrams ms

/-- The requests among the turns: contents and sender. -/
def requests : List Echo.Turn → List (List Nat × Nat)
  | [] => []
  | t :: ts => t.msg.toList ++ requests ts

end Verif.Spec

namespace Verif
open Verif.Echo Verif.Spec

/-! ## UDP -/

theorem driverReads_send (d : EchoDatagram) (h : d.Ok) :
    driverReads (udpAsyncSend d.ip d.port d.data) = some d := by
  obtain ⟨⟨a, b, c, e⟩, port, data⟩ := d
  obtain ⟨ha, hb, hc, he, hp⟩ := h
  have m (x : Nat) : x &&& 255 = x % 256 := Nat.and_two_pow_sub_one_eq_mod x 8
  simp only at ha hb hc he hp
  simp [driverReads, udpAsyncSend, m, Nat.shiftRight_eq_div_pow]
  omega

/-- Every datagram is returned to its sender, in order, as long as no send fails. -/
theorem C99_udp (ms : List UMsg) (hok : ∀ d ∈ datagrams ms, d.Ok)
    (hsend : UMsg.inetReply false ∉ ms) :
    (udpServer ms).1.map driverReads = (datagrams ms).map some ∧ (udpServer ms).2 = true := by
  induction ms with
  | nil => simp [udpServer, datagrams]
  | cons m ms ih =>
    cases m with
    | udp ip port p =>
      have := ih (fun d hd => hok d (by simp [datagrams, hd])) (fun h => hsend (by simp [h]))
      have hd := driverReads_send ⟨ip, port, p⟩ (hok _ (by simp [datagrams]))
      simp only at hd
      simp [udpServer, datagrams, this, hd]
    | other =>
      exact ih (fun d hd => hok d (by simpa [datagrams] using hd)) (fun h => hsend (by simp [h]))
    | inetReply b =>
      cases b with
      | false => simp at hsend
      | true =>
        exact ih (fun d hd => hok d (by simpa [datagrams] using hd)) (fun h => hsend (by simp [h]))

example : (udpServer [.udp (10, 0, 0, 255) 50001 [1, 2], .inetReply true, .other,
      .udp (10, 0, 0, 1) 65535 []]).1.map driverReads =
    [some ⟨(10, 0, 0, 255), 50001, [1, 2]⟩, some ⟨(10, 0, 0, 1), 65535, []⟩] := by decide +kernel

/-- The performance tester calls the UDP server with a number of arguments for which there
is no function: this mode does not start. -/
theorem C99_violated_start :
    ∃ c ∈ calls, defined c.1 c.2 = false ∧ c.1 = "start_udp_echo_server" := by
  exact ⟨("start_udp_echo_server", 1), by decide, by decide, rfl⟩

example : ∃ c ∈ calls, defined c.1 c.2 = true ∧ c.1 = "start_tcp_echo_server" :=
  ⟨("start_tcp_echo_server", 2), by decide, by decide, rfl⟩

/-! ## TCP -/

theorem serve_data (mode : Active) (ps : List (List Nat)) (rest : List TEv) :
    serve mode true (ps.map .data ++ rest) =
      (ps ++ (serve mode true rest).1, (serve mode true rest).2) := by
  induction ps with
  | nil => simp
  | cons p ps ih => cases mode <;> simp [serve, tcpRecv, ih]

theorem serve_session (mode : Active) (h : mode ≠ .no) (ps : List (List Nat)) :
    serve mode true (tcpSession ps) = (ps, .waiting) := by
  unfold tcpSession
  rw [serve_data]
  cases mode <;> simp_all [serve, tcpRecv]

/-- With an active socket every client gets its packets back, in order; then the next one
is served.  The last client may still be there. -/
theorem C99_tcp_partial (mode : Active) (h : mode ≠ .no) (cs : List (List (List Nat)))
    (c : List (List Nat)) :
    tcpServer mode (cs.map tcpSession) = (cs, .waiting) ∧
    tcpServer mode (cs.map tcpSession ++ [c.map .data]) = (cs ++ [c], .serving) := by
  induction cs with
  | nil =>
    have := serve_data mode c []
    simp [serve] at this
    simp [tcpServer, this]
  | cons x xs ih => simp [tcpServer, serve_session mode h, ih]

example : tcpServer .yes ([[[1], [2, 3]], [], [[4]]].map tcpSession) =
    ([[[1], [2, 3]], [], [[4]]], .waiting) := by decide +kernel

/-- With a passive socket the server ends when the first client closes the connection;
nobody after it is served. -/
theorem C99_violated_passive (c : List (List Nat)) (rest : List (List TEv)) :
    tcpServer .no (tcpSession c :: rest) = ([c], .crashed) := by
  have := serve_data .no c [.closed]
  simp [serve, tcpRecv] at this
  simp [tcpServer, tcpSession, this]

/-! ## The dummy device client -/

theorem answer_split (now : Int) (q : List Entry) :
    (answer now q).1.map (fun r => (r.bin, r.pid)) ++ (answer now q).2.map (fun e => (e.bin, e.pid)) =
      q.map (fun e => (e.bin, e.pid)) := by
  cases q with
  | nil => simp [answer]
  | cons e q => simp only [answer]; split <;> simp

theorem enqueue_map (t : Turn) (q : List Entry) :
    (enqueue t q).map (fun e => (e.bin, e.pid)) = q.map (fun e => (e.bin, e.pid)) ++ t.msg.toList := by
  unfold enqueue
  split <;> simp_all

theorem device_fifo (ts : List Turn) (q : List Entry) :
    (device ts q).1.map (fun r => (r.bin, r.pid)) ++ (device ts q).2.map (fun e => (e.bin, e.pid)) =
      q.map (fun e => (e.bin, e.pid)) ++ requests ts := by
  induction ts generalizing q with
  | nil => simp [device, requests]
  | cons t ts ih =>
    simp only [device, requests, List.map_append, List.append_assoc, ih, enqueue_map]
    rw [← List.append_assoc, answer_split]

/-- No request is lost, answered twice or overtaken: the responses, followed by what is in
the queue, are the requests. -/
theorem C99_fifo (ts : List Turn) :
    (device ts []).1.map (fun r => (r.bin, r.pid)) ++
      (device ts []).2.map (fun e => (e.bin, e.pid)) = requests ts := by
  simpa using device_fifo ts []

/-- The times at which requests came, in order. -/
def Spec.stamps : List Turn → List Int
  | [] => []
  | t :: ts => (if t.msg.isSome then [t.stamp] else []) ++ Spec.stamps ts

theorem enqueue_times (t : Turn) (q : List Entry) :
    (enqueue t q).map (·.time) = q.map (·.time) ++ (if t.msg.isSome then [t.stamp] else []) := by
  unfold enqueue
  split <;> simp_all

theorem device_late (ts : List Turn) (q : List Entry) (k : Nat) (r : Resp)
    (h : (device ts q).1[k]? = some r) :
    ∃ s, (q.map (·.time) ++ Spec.stamps ts)[k]? = some s ∧ r.at_ - s > 100 ∧ r.code = 0 := by
  induction ts generalizing q k with
  | nil => simp [device] at h
  | cons t ts ih =>
    simp only [device] at h
    cases q with
    | nil =>
      simp only [answer, List.nil_append] at h
      have := ih _ _ h
      simpa [enqueue_times, Spec.stamps] using this
    | cons e q =>
      by_cases hl : t.now - e.time > 100
      · simp only [answer, hl, if_true] at h
        cases k with
        | zero =>
          simp at h
          subst h
          exact ⟨e.time, by simp, hl, rfl⟩
        | succ k =>
          simp at h
          have := ih _ _ h
          simpa [enqueue_times, Spec.stamps] using this
      · simp only [answer, hl, if_false, List.nil_append] at h
        have := ih _ _ h
        simpa [enqueue_times, Spec.stamps] using this

/-- The response to a request is sent more than 100 microseconds after the request, with
error code 0. -/
theorem C99_delay (ts : List Turn) (k : Nat) (r : Resp) (h : (device ts []).1[k]? = some r) :
    ∃ s, (Spec.stamps ts)[k]? = some s ∧ r.at_ - s > 100 ∧ r.code = 0 := by
  simpa using device_late ts [] k r h

theorem device_append (ts us : List Turn) (q : List Entry) :
    device (ts ++ us) q =
      ((device ts q).1 ++ (device us (device ts q).2).1, (device us (device ts q).2).2) := by
  induction ts generalizing q with
  | nil => simp [device]
  | cons t ts ih => simp [device, ih]

theorem device_times (ts : List Turn) (q : List Entry) (e : Entry) (h : e ∈ (device ts q).2) :
    e.time ∈ q.map (·.time) ++ Spec.stamps ts := by
  induction ts generalizing q with
  | nil => simp [device] at h; simp; exact .inl ⟨e, h, rfl⟩
  | cons t ts ih =>
    simp only [device] at h
    have := ih _ h
    simp only [enqueue_times, List.append_assoc, List.mem_append] at this
    simp only [Spec.stamps, List.mem_append]
    rcases this with h1 | h1 | h1
    · left
      cases q with
      | nil => simp [answer] at h1
      | cons x q =>
        simp only [answer] at h1
        split at h1
        · exact List.mem_cons_of_mem _ h1
        · exact h1
    · exact .inr (.inl h1)
    · exact .inr (.inr h1)

theorem device_drain (us : List Turn) (q : List Entry) (hq : ∀ u ∈ us, u.msg = none)
    (hlen : q.length ≤ us.length) (hl : ∀ u ∈ us, ∀ e ∈ q, u.now - e.time > 100) :
    (device us q).2 = [] := by
  induction us generalizing q with
  | nil => simp at hlen; simp [device, hlen]
  | cons u us ih =>
    have hu : enqueue u = id := by funext q; simp [enqueue, hq u (by simp)]
    cases q with
    | nil =>
      simp only [device, answer, hu, id]
      exact ih [] (fun v hv => hq v (by simp [hv])) (by simp) (by simp)
    | cons e q =>
      simp only [device, answer, hl u (by simp) e (by simp), if_true, hu, id]
      exact ih q (fun v hv => hq v (by simp [hv])) (by simpa using hlen)
        (fun v hv x hx => hl v (by simp [hv]) x (by simp [hx]))

theorem requests_append (ts us : List Turn) : requests (ts ++ us) = requests ts ++ requests us := by
  induction ts with
  | nil => rfl
  | cons t ts ih => simp [requests, ih]

/-- After as many quiet turns as there were requests, more than 100 microseconds after the
last of them, all are answered. -/
theorem C99_drain (ts us : List Turn) (hq : ∀ u ∈ us, u.msg = none)
    (hlen : (requests ts).length ≤ us.length)
    (hl : ∀ u ∈ us, ∀ s ∈ Spec.stamps ts, u.now - s > 100) :
    (device (ts ++ us) []).1.map (fun r => (r.bin, r.pid)) = requests ts := by
  have h1 := C99_fifo ts
  have h2 : (device ts []).2.length ≤ us.length := by
    have := congrArg List.length h1
    simp at this
    omega
  have h3 := device_drain us (device ts []).2 hq h2 (fun u hu e he =>
    hl u hu _ (by simpa using device_times ts [] e he))
  have h4 := C99_fifo (ts ++ us)
  have h5 : requests us = [] := by
    clear hlen hl h2 h3 h4
    induction us with
    | nil => rfl
    | cons u us ih => simp [requests, hq u (by simp), ih (fun v hv => hq v (by simp [hv]))]
  have h6 : (device (ts ++ us) []).2 = [] := by rw [device_append]; exact h3
  rw [h6, requests_append, h5] at h4
  simpa using h4

/-- Two requests in a row, then quiet turns: both are answered, in order, each late enough. -/
example : (device [⟨0, some ([1], 7), 0⟩, ⟨50, some ([2], 8), 60⟩, ⟨101, none, 0⟩,
    ⟨102, none, 0⟩, ⟨161, none, 0⟩] []).1 = [⟨7, 0, [1], 101⟩, ⟨8, 0, [2], 161⟩] := by
  decide +kernel

example : ∃ ts us : List Turn, requests ts ≠ [] ∧ (∀ u ∈ us, u.msg = none) ∧
    (requests ts).length ≤ us.length ∧ ∀ u ∈ us, ∀ s ∈ Spec.stamps ts, u.now - s > 100 :=
  ⟨[⟨0, some ([1], 7), 0⟩], [⟨200, none, 0⟩], by simp [requests], by simp, by simp [requests],
    by simp [Spec.stamps]⟩

end Verif
