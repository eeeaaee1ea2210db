import Verif.Lemmas.HandlerSteps
import Verif.Props.C18
/-!
# C89: exception handlers need not be one step

`dispatchExceptionHandler` of the UDP and TCP clients takes no lock. If no callback is in progress or to come when it begins, the order in
which its statements and the steps of the network thread are executed does not matter, and the client is as new afterwards. Otherwise
it does matter: a packet can survive the handler. Even with nothing to come `CheckDeadline` uses the variables that the handler
writes to.
-/

set_option autoImplicit false
set_option linter.unusedSimpArgs false

namespace Verif

/-- The handler as one step, then what the network thread did meanwhile. -/
def FAct.coarse : FAct → List Act
  | .dispatch b => [.dispatch b]
  | .ev e => [.ev e]
  | .handler es => .handler :: es.flatten.map .ev

def TFAct.coarse : TFAct → List TAct
  | .act .handler => []
  | .act a => [a]
  | .handler es => .handler :: es.flatten.map .ev

theorem udp_evs (c : Cfg) (N : Nat) (es : List Ev) (u : Udp) : (es.map Act.ev).foldl (Udp.act c N) u = es.foldl (Udp.ev c N) u := by
  induction es generalizing u with
  | nil => rfl
  | cons e es ih => exact ih _

theorem tcp_evs (c : Cfg) (n N : Nat) (es : List TEv) (u : Tcp) : (es.map TAct.ev).foldl (Tcp.act c n N) u = es.foldl (Tcp.ev c n N) u := by
  induction es generalizing u with
  | nil => rfl
  | cons e es ih => exact ih _

/-- Induction from the end of a list. -/
theorem snoc_ind {α : Type} {P : List α → Prop} (h0 : P []) (h1 : ∀ l a, P l → P (l ++ [a])) (l : List α) : P l := by
  have : ∀ l : List α, P l.reverse := by
    intro l
    induction l with
    | nil => exact h0
    | cons a l ih => rw [List.reverse_cons]; exact h1 _ _ ih
  simpa using this l.reverse

/-- UDP: every schedule in which handlers begin with nothing pending leads where the schedule leads in which they are one step. -/
theorem C89_udp_partial (c : Cfg) (N : Nat) (as : List FAct)
    (h : ∀ as1 es as2, as = as1 ++ FAct.handler es :: as2 →
      (Udp.fine c N as1).sendOps = [] ∧ (Udp.fine c N as1).recvOps = [] ∧ (Udp.fine c N as1).mid = none) :
    Udp.fine c N as = Udp.sched c N (as.flatMap FAct.coarse) := by
  revert h
  induction as using snoc_ind with
  | h0 => exact fun _ => rfl
  | h1 as a ih =>
  intro h
  have k := ih fun as1 es as2 e => h as1 es (as2 ++ [a]) (by simp [e])
  have e1 : Udp.fine c N (as ++ [a]) = (Udp.fine c N as).fact c N a := by simp [Udp.fine, List.foldl_append]
  have e2 : Udp.sched c N ((as ++ [a]).flatMap FAct.coarse) = (FAct.coarse a).foldl (Udp.act c N) (Udp.sched c N (as.flatMap FAct.coarse)) := by
    simp [Udp.sched, List.foldl_append]
  rw [e1, e2, ← k]
  cases a with
  | dispatch b => rfl
  | ev e => rfl
  | handler es =>
    obtain ⟨q1, q2, q3⟩ := h as es [] rfl
    have q : (Udp.fine c N as).Quiet := ⟨q1, q2, q3⟩
    simp only [Udp.fact, FAct.coarse, List.foldl_cons, udp_evs]
    have e3 : (Udp.fine c N as).act c N .handler = if (Udp.fine c N as).crashed then Udp.fine c N as else (Udp.fine c N as).handler := rfl
    rw [e3]
    split
    · rename_i hc
      have : ∀ es : List Ev, es.foldl (Udp.ev c N) (Udp.fine c N as) = Udp.fine c N as := by
        intro es
        induction es with
        | nil => rfl
        | cons e es ih' => simp only [List.foldl_cons]; rw [show (Udp.fine c N as).ev c N e = Udp.fine c N as by simp [Udp.ev, hc]]; exact ih'
      rw [this]
    · rw [q.weave, q.body]

/-- TCP: the same. -/
theorem C89_tcp_partial (c : Cfg) (n N : Nat) (as : List TFAct)
    (h : ∀ as1 es as2, as = as1 ++ TFAct.handler es :: as2 → (Tcp.fine c n N as1).pc = .thrown ∧
      (Tcp.fine c n N as1).sendOps = [] ∧ (Tcp.fine c n N as1).recvOps = [] ∧ (Tcp.fine c n N as1).mid = none) :
    Tcp.fine c n N as = Tcp.sched c n N (as.flatMap TFAct.coarse) := by
  revert h
  induction as using snoc_ind with
  | h0 => exact fun _ => rfl
  | h1 as a ih =>
  intro h
  have k := ih fun as1 es as2 e => h as1 es (as2 ++ [a]) (by simp [e])
  have e1 : Tcp.fine c n N (as ++ [a]) = (Tcp.fine c n N as).fact c n N a := by simp [Tcp.fine, List.foldl_append]
  have e2 : Tcp.sched c n N ((as ++ [a]).flatMap TFAct.coarse) =
      (TFAct.coarse a).foldl (Tcp.act c n N) (Tcp.sched c n N (as.flatMap TFAct.coarse)) := by
    simp [Tcp.sched, List.foldl_append]
  rw [e1, e2, ← k]
  cases a with
  | act a => cases a <;> rfl
  | handler es =>
    obtain ⟨q0, q1, q2, q3⟩ := h as es [] rfl
    have q : (Tcp.fine c n N as).Quiet := ⟨q1, q2, q3⟩
    simp only [Tcp.fact, TFAct.coarse, List.foldl_cons, tcp_evs]
    have e3 : (Tcp.fine c n N as).act c n N .handler =
        if (Tcp.fine c n N as).crashed then Tcp.fine c n N as else if (Tcp.fine c n N as).pc = .thrown then (Tcp.fine c n N as).handler else Tcp.fine c n N as := rfl
    rw [e3]
    split
    · rename_i hc
      have : ∀ es : List TEv, es.foldl (Tcp.ev c n N) (Tcp.fine c n N as) = Tcp.fine c n N as := by
        intro es
        induction es with
        | nil => rfl
        | cons e es ih' => simp only [List.foldl_cons]; rw [show (Tcp.fine c n N as).ev c n N e = Tcp.fine c n N as by simp [Tcp.ev, hc]]; exact ih'
      rw [this]
    · rw [q.weave, q.body]

/-- UDP: the client is as new after the handler, whatever the network thread did meanwhile. -/
theorem C89_clean_partial (c : Cfg) (N : Nat) (u : Udp) (h : u.sendOps = [] ∧ u.recvOps = [] ∧ u.mid = none) (es : List (List Ev)) :
    let v := u.weave c N handlerBody es
    v.exc = none ∧ v.dispQ = [] ∧ v.replyQ = [] ∧ v.disp = none ∧ v.reply = none ∧ v.inFlight = 0 ∧ v.flushDone = true ∧ v.sock = false ∧
      v.sendOps = [] ∧ v.recvOps = [] ∧ v.mid = none ∧ v.heap = u.heap := by
  have q : u.Quiet := ⟨h.1, h.2.1, h.2.2⟩
  intro v
  have e : v = es.flatten.foldl (Udp.ev c N) u.handler := by rw [← q.body]; exact q.weave _ _
  have qh : u.handler.Quiet := ⟨by simp [Udp.handler, Udp.close, q.send], by simp [Udp.handler, Udp.close, q.recv], q.mid⟩
  have k : ∀ (l : List Ev) (w : Udp), w.Quiet → w.exc = none ∧ w.dispQ = [] ∧ w.replyQ = [] ∧ w.disp = none ∧ w.reply = none ∧ w.inFlight = 0 ∧
      w.flushDone = true ∧ w.sock = false ∧ w.heap = u.heap → let v := l.foldl (Udp.ev c N) w
      v.exc = none ∧ v.dispQ = [] ∧ v.replyQ = [] ∧ v.disp = none ∧ v.reply = none ∧ v.inFlight = 0 ∧ v.flushDone = true ∧ v.sock = false ∧ v.heap = u.heap := by
    intro l
    induction l with
    | nil => exact fun w _ hw => hw
    | cons e l ih =>
      intro w hq hw
      refine ih _ (hq.ev_quiet e) ?_
      rw [hq.ev_eq]
      cases e with
      | timeout =>
        simp only
        split
        · exact hw
        · unfold Udp.timeout
          split
          · obtain ⟨a1, a2, a3, a4, a5, a6, a7, a8, a9⟩ := hw
            exact ⟨a1, a2, a3, a4, a5, a6, a7, rfl, a9⟩
          · exact hw
      | _ => exact hw
  obtain ⟨a1, a2, a3, a4, a5, a6, a7, a8, a9⟩ := k es.flatten u.handler qh ⟨rfl, rfl, rfl, rfl, rfl, rfl, rfl, rfl, rfl⟩
  have qv := qh.fold_quiet (c := c) (N := N) es.flatten
  rw [e]
  exact ⟨a1, a2, a3, a4, a5, a6, a7, a8, qv.send, qv.recv, qv.mid, a9⟩

/-- TCP: the same; entries of `mReplyQueue` stay, without packets (C21). -/
theorem C89_tcp_clean_partial (c : Cfg) (n N : Nat) (u : Tcp) (h : u.sendOps = [] ∧ u.recvOps = [] ∧ u.mid = none) (es : List (List TEv)) :
    let v := u.weave c n N handlerBody es
    v.exc = none ∧ v.dispQ = [] ∧ v.replyQ = u.replyQ.map (fun _ => []) ∧ v.disp = [] ∧ v.reply = [] ∧ v.inFlight = 0 ∧ v.flushDone = true ∧ v.sock = false ∧
      v.sendOps = [] ∧ v.recvOps = [] ∧ v.mid = none ∧ v.heap = u.heap := by
  have q : u.Quiet := ⟨h.1, h.2.1, h.2.2⟩
  intro v
  have e : v = es.flatten.foldl (Tcp.ev c n N) u.handler := by rw [← q.body]; exact q.weave _ _
  have qh : u.handler.Quiet := ⟨by simp [Tcp.handler, Tcp.close, q.send], by simp [Tcp.handler, Tcp.close, q.recv], q.mid⟩
  have k : ∀ (l : List TEv) (w : Tcp), w.Quiet → w.exc = none ∧ w.dispQ = [] ∧ w.replyQ = u.replyQ.map (fun _ => []) ∧ w.disp = [] ∧ w.reply = [] ∧ w.inFlight = 0 ∧
      w.flushDone = true ∧ w.sock = false ∧ w.heap = u.heap → let v := l.foldl (Tcp.ev c n N) w
      v.exc = none ∧ v.dispQ = [] ∧ v.replyQ = u.replyQ.map (fun _ => []) ∧ v.disp = [] ∧ v.reply = [] ∧ v.inFlight = 0 ∧ v.flushDone = true ∧ v.sock = false ∧ v.heap = u.heap := by
    intro l
    induction l with
    | nil => exact fun w _ hw => hw
    | cons e l ih =>
      intro w hq hw
      refine ih _ (hq.ev_quiet e) ?_
      rw [hq.ev_eq]
      cases e with
      | timeout =>
        simp only
        split
        · exact hw
        · unfold Tcp.timeout
          split
          · obtain ⟨a1, a2, a3, a4, a5, a6, a7, a8, a9⟩ := hw
            exact ⟨a1, a2, a3, a4, a5, a6, a7, rfl, a9⟩
          · exact hw
      | _ => exact hw
  obtain ⟨a1, a2, a3, a4, a5, a6, a7, a8, a9⟩ := k es.flatten u.handler qh ⟨rfl, rfl, rfl, rfl, rfl, rfl, rfl, rfl, rfl⟩
  have qv := qh.fold_quiet (c := c) (n := n) (N := N) es.flatten
  rw [e]
  exact ⟨a1, a2, a3, a4, a5, a6, a7, a8, qv.send, qv.recv, qv.mid, a9⟩

/-! ### What goes wrong -/

section
private def bad : List FAct := [.dispatch (readPkt .v2), .ev (.sendDone true), .ev (.recvBegin none), .ev .recvEnd]
private def busy : List FAct :=
  [.dispatch (readPkt .v2), .ev (.sendDone true), .dispatch (readPkt .v2), .ev (.recvBegin none), .ev .recvEnd]

/-- A failed receive, nothing else pending: `CheckDeadline` may use the socket and the buffers at the very moment at which the handler
closes and resets them. -/
theorem C89_violated_race : let u := Udp.fine (demoCfg .v2) 16 bad
    u.exc.isSome = true ∧ u.sendOps = [] ∧ u.recvOps = [] ∧
      handlerBody.filter (fun s => (handlerBody.takeWhile (· ≠ s)).foldl Udp.stmt u |>.clash s) = [.close, .dropDisp, .dropReply] := by
  decide +kernel

/-- A second packet is being sent when the exception is noticed. The completion of that falls between two statements of the
handler: the packet is in `mReplyQueue` of a client that is taken for clean. -/
theorem C89_violated_busy : let u := Udp.fine (demoCfg .v2) 16 busy
    u.exc.isSome = true ∧ u.sendOps.length = 1 ∧
      (Udp.fine (demoCfg .v2) 16 (busy ++ [.handler [[], [], [], [], [], [.sendDone true]]])).replyQ = [readPkt .v2] ∧
      (Udp.fine (demoCfg .v2) 16 (busy ++ [.handler [[.sendDone true]]])).replyQ = [] := by
  decide +kernel

/-- No other statement is in conflict with `CheckDeadline`. -/
theorem C89_race_partial (u : Udp) (s : HStmt) (h : u.clash s = true) : s = .close ∨ s = .dropDisp ∨ s = .dropReply := by
  cases s <;> simp [Udp.clash, HStmt.writes, deadlineUses] at h <;> simp

/-! ### Not vacuous -/

example : let u := Udp.fine (demoCfg .v2) 16 (bad ++ [.handler [[.timeout], [], [.sendDone true], [.timeout]], .dispatch (readPkt .v2)])
    u.exc = none ∧ u.sent.length = 1 ∧ u.disp.isSome = true ∧ u.sock = true := by
  decide +kernel

example : ∀ as1 es as2, bad ++ [.handler [[.timeout]], .dispatch (readPkt .v2)] = as1 ++ FAct.handler es :: as2 →
    (Udp.fine (demoCfg .v2) 16 as1).sendOps = [] ∧ (Udp.fine (demoCfg .v2) 16 as1).recvOps = [] ∧ (Udp.fine (demoCfg .v2) 16 as1).mid = none := by
  intro as1 es as2 h
  have e : as1 = bad := by
    rcases as1 with _ | ⟨a, _ | ⟨b, _ | ⟨c, _ | ⟨d, _ | ⟨f, as1⟩⟩⟩⟩⟩ <;> simp [bad] at h ⊢
    · simp [h]
    · obtain ⟨_, _, _, _, _, h⟩ := h
      rcases as1 with _ | ⟨g, as1⟩ <;> simp at h
  rw [e]
  decide +kernel

private def tbad : List TFAct := [.act (.dispatch (readPkt .v2) true), .act (.ev (.sendDone true)), .act (.ev (.recvHdr none)), .act (.ev .recvEnd), .act .flushStart, .act .flushEnd]

example : let u := Tcp.fine (demoCfg .v2) 1 16 tbad
    u.pc = .thrown ∧ u.sendOps = [] ∧ u.recvOps = [] ∧ u.mid = none ∧ u.exc.isSome = true ∧ u.reply.length = 1 ∧
      (Tcp.fine (demoCfg .v2) 1 16 (tbad ++ [.handler [[.timeout], [], [.timeout]]])).reply = [] := by
  decide +kernel

end

end Verif
