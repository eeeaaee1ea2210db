import Verif.Model.HandlerSteps
/-!
# With nothing pending, the statements of a handler and steps of the network thread commute
-/

set_option autoImplicit false
set_option linter.unusedSimpArgs false

namespace Verif

/-! ### UDP -/

/-- No callback is in progress or to come. -/
structure Udp.Quiet (u : Udp) : Prop where
  send : u.sendOps = []
  recv : u.recvOps = []
  mid : u.mid = none

variable {c : Cfg} {n N : Nat}

/-- The only step that does anything is the one for a deadline that has passed. -/
theorem Udp.Quiet.ev_eq {u : Udp} (h : u.Quiet) (e : Ev) :
    u.ev c N e = (match e with | .timeout => if u.crashed then u else u.timeout | _ => u) := by
  obtain ⟨h1, h2, h3⟩ := h
  cases hc : u.crashed <;> cases e <;> simp [Udp.ev, hc, h3, Udp.sendDone, Udp.recvBegin, h1, h2]

theorem Udp.Quiet.ev_quiet {u : Udp} (h : u.Quiet) (e : Ev) : (u.ev c N e).Quiet := by
  rw [h.ev_eq]
  cases e with
  | timeout =>
    simp only
    split
    · exact h
    · unfold Udp.timeout
      split
      · exact ⟨by simp [Udp.close, h.send], by simp [Udp.close, h.recv], h.mid⟩
      · exact h
  | _ => exact h

theorem Udp.Quiet.fold_quiet {u : Udp} (es : List Ev) (h : u.Quiet) : (es.foldl (Udp.ev c N) u).Quiet := by
  induction es generalizing u with
  | nil => exact h
  | cons e es ih => exact ih (h.ev_quiet e)

theorem Udp.Quiet.stmt_quiet {u : Udp} (h : u.Quiet) (s : HStmt) : (u.stmt s).Quiet := by
  obtain ⟨h1, h2, h3⟩ := h
  cases s <;> first | exact ⟨h1, h2, h3⟩ | (refine ⟨?_, ?_, h3⟩ <;> simp [Udp.stmt, Udp.close, h1, h2])

/-- A step of the network thread and a statement of the handler. -/
theorem Udp.Quiet.comm {u : Udp} (h : u.Quiet) (e : Ev) (s : HStmt) : (u.ev c N e).stmt s = (u.stmt s).ev c N e := by
  rw [h.ev_eq, (h.stmt_quiet s).ev_eq]
  have hc : (u.stmt s).crashed = u.crashed := by cases s <;> rfl
  have hd : (u.stmt s).deadline = u.deadline := by cases s <;> rfl
  cases e with
  | timeout =>
    simp only [hc]
    split
    · rfl
    · unfold Udp.timeout
      rw [hd]
      cases u.deadline with
      | inf => rfl
      | armed => cases s <;> simp [Udp.stmt, Udp.close]
  | _ => rfl

theorem Udp.Quiet.comm_fold {u : Udp} (es : List Ev) (h : u.Quiet) (s : HStmt) :
    (es.foldl (Udp.ev c N) u).stmt s = es.foldl (Udp.ev c N) (u.stmt s) := by
  induction es generalizing u with
  | nil => rfl
  | cons e es ih =>
    simp only [List.foldl_cons]
    rw [ih (h.ev_quiet e), h.comm]

/-- All steps of the network thread may be moved behind the handler. -/
theorem Udp.Quiet.weave {u : Udp} (ss : List HStmt) (es : List (List Ev)) (h : u.Quiet) :
    u.weave c N ss es = es.flatten.foldl (Udp.ev c N) (ss.foldl Udp.stmt u) := by
  induction ss generalizing u es with
  | nil => rfl
  | cons s ss ih =>
    unfold Udp.weave
    rw [ih _ ((h.fold_quiet _).stmt_quiet s), h.comm_fold]
    simp only [List.foldl_cons]
    have k : ∀ (l : List Ev) (v : Udp), v.Quiet → ss.foldl Udp.stmt (l.foldl (Udp.ev c N) v) = l.foldl (Udp.ev c N) (ss.foldl Udp.stmt v) := by
      intro l
      clear ih
      induction ss with
      | nil => intro v _; rfl
      | cons s' ss ih' => intro v hv; simp only [List.foldl_cons]; rw [hv.comm_fold, ih' _ (hv.stmt_quiet s')]
    rw [k _ _ (h.stmt_quiet s)]
    cases es with
    | nil => rfl
    | cons l es => simp [List.foldl_append]

/-- The statements one after the other. -/
theorem Udp.Quiet.body {u : Udp} (h : u.Quiet) : handlerBody.foldl Udp.stmt u = u.handler := by
  simp [handlerBody, Udp.stmt, Udp.handler, Udp.close, h.send, h.recv, h.mid]

/-! ### TCP -/

/-- No callback is in progress or to come. -/
structure Tcp.Quiet (u : Tcp) : Prop where
  send : u.sendOps = []
  recv : u.recvOps = []
  mid : u.mid = none

theorem Tcp.Quiet.stmt_quiet {u : Tcp} (h : u.Quiet) (s : HStmt) : (u.stmt s).Quiet := by
  obtain ⟨h1, h2, h3⟩ := h
  cases s <;> first | exact ⟨h1, h2, h3⟩ | (refine ⟨?_, ?_, h3⟩ <;> simp [Tcp.stmt, Tcp.close, h1, h2])

theorem Tcp.Quiet.ev_eq {u : Tcp} (h : u.Quiet) (e : TEv) :
    u.ev c n N e = (match e with | .timeout => if u.crashed then u else u.timeout | _ => u) := by
  obtain ⟨h1, h2, h3⟩ := h
  cases hc : u.crashed <;> cases e <;> simp [Tcp.ev, hc, h3, Tcp.sendDone, Tcp.recvHdr, h1, h2]

theorem Tcp.Quiet.ev_quiet {u : Tcp} (h : u.Quiet) (e : TEv) : (u.ev c n N e).Quiet := by
  rw [h.ev_eq]
  cases e with
  | timeout =>
    simp only
    split
    · exact h
    · unfold Tcp.timeout
      split
      · exact ⟨by simp [Tcp.close, h.send], by simp [Tcp.close, h.recv], h.mid⟩
      · exact h
  | _ => exact h

theorem Tcp.Quiet.fold_quiet {u : Tcp} (es : List TEv) (h : u.Quiet) : (es.foldl (Tcp.ev c n N) u).Quiet := by
  induction es generalizing u with
  | nil => exact h
  | cons e es ih => exact ih (h.ev_quiet e)

theorem Tcp.Quiet.comm {u : Tcp} (h : u.Quiet) (e : TEv) (s : HStmt) : (u.ev c n N e).stmt s = (u.stmt s).ev c n N e := by
  rw [h.ev_eq, (h.stmt_quiet s).ev_eq]
  have hc : (u.stmt s).crashed = u.crashed := by cases s <;> rfl
  have hd : (u.stmt s).deadline = u.deadline := by cases s <;> rfl
  cases e with
  | timeout =>
    simp only [hc]
    split
    · rfl
    · unfold Tcp.timeout
      rw [hd]
      cases u.deadline with
      | inf => rfl
      | armed => cases s <;> simp [Tcp.stmt, Tcp.close]
  | _ => rfl

theorem Tcp.Quiet.comm_fold {u : Tcp} (es : List TEv) (h : u.Quiet) (s : HStmt) :
    (es.foldl (Tcp.ev c n N) u).stmt s = es.foldl (Tcp.ev c n N) (u.stmt s) := by
  induction es generalizing u with
  | nil => rfl
  | cons e es ih =>
    simp only [List.foldl_cons]
    rw [ih (h.ev_quiet e), h.comm]

theorem Tcp.Quiet.weave {u : Tcp} (ss : List HStmt) (es : List (List TEv)) (h : u.Quiet) :
    u.weave c n N ss es = es.flatten.foldl (Tcp.ev c n N) (ss.foldl Tcp.stmt u) := by
  induction ss generalizing u es with
  | nil => rfl
  | cons s ss ih =>
    unfold Tcp.weave
    rw [ih _ ((h.fold_quiet _).stmt_quiet s), h.comm_fold]
    simp only [List.foldl_cons]
    have k : ∀ (l : List TEv) (v : Tcp), v.Quiet → ss.foldl Tcp.stmt (l.foldl (Tcp.ev c n N) v) = l.foldl (Tcp.ev c n N) (ss.foldl Tcp.stmt v) := by
      intro l
      clear ih
      induction ss with
      | nil => intro v _; rfl
      | cons s' ss ih' => intro v hv; simp only [List.foldl_cons]; rw [hv.comm_fold, ih' _ (hv.stmt_quiet s')]
    rw [k _ _ (h.stmt_quiet s)]
    cases es with
    | nil => rfl
    | cons l es => simp [List.foldl_append]

theorem Tcp.Quiet.body {u : Tcp} (h : u.Quiet) : handlerBody.foldl Tcp.stmt u = u.handler := by
  simp [handlerBody, Tcp.stmt, Tcp.handler, Tcp.close, h.send, h.recv, h.mid]

end Verif
