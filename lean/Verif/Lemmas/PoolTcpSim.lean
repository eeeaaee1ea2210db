import Verif.Lemmas.PoolTcpLike
import Verif.Lemmas.TcpAll
/-!
# The simulation of `Tcp` by `TcpP`, concluded
-/

set_option autoImplicit false
set_option linter.unusedSimpArgs false

namespace Verif
namespace TcpP

variable {c : Cfg} {p : TcpP} {u : Tcp}

/-- One more packet has been validated: not the last one, the last one, or one with an error. -/
theorem like_valid (r : Like c p u) {i : Nat} {is : List Nat} {ws body : List W} (hm : p.mid = some (.check (i :: is) ws body)) (hh : p.held = none) :
    (p.valid c).crashed = true ∨
    ((∃ j js ws' b, (p.valid c).mid = some (.check (j :: js) ws' b)) ∧ Like c (p.valid c) u) ∨
    ((∀ j js ws' b, (p.valid c).mid ≠ some (.check (j :: js) ws' b)) ∧ Like c (p.valid c) (u.recvBody c (some body))) := by
  have hq := r.phase
  rw [hm] at hq
  obtain ⟨hu, hw, done, hl, hr⟩ := hq
  simp only [List.map_cons, chunkValidate] at hr
  unfold valid
  rw [hm, hh]
  simp only
  cases hv : clientValidate c p.heap (p.mem i) with
  | mk out h =>
    rw [hv] at hr
    cases out with
    | ub => exact .inl rfl
    | ok =>
      right
      simp only at hr ⊢
      cases is with
      | nil =>
        refine .inr ⟨by simp, ?_⟩
        simp only [List.map_nil, chunkValidate] at hr
        have e : u.recvBody c (some body) = { u with heap := h, mid := some .last, matched := u.matched ++ [(u.reply, body)], rx := u.rx ++ [body], log := u.log ++ (done ++ [⟨p.mem i, ws.take (p.mem i).words, .ok⟩]), outcomes := u.outcomes ++ okOutcomes (done ++ [⟨p.mem i, ws.take (p.mem i).words, .ok⟩]) } := by
          unfold Tcp.recvBody
          rw [hu]
          simp only
          rw [if_neg (fun x => x.elim (fun y => y rfl) hw), hr]
        rw [e]
        refine { r with live := fun _ x => by simp [whole] at x, phase := ⟨rfl, rfl, ?_⟩ }
        simp [hl]
      | cons j js =>
        refine .inl ⟨⟨j, js, _, _, rfl⟩, ?_⟩
        refine { r with live := fun _ x => by simp [whole] at x, phase := ⟨hu, hw, done ++ [⟨p.mem i, ws.take (p.mem i).words, .ok⟩], ?_, ?_⟩ }
        · simp [hl]
        · rw [hr]
          simp
    | err e =>
      right
      right
      simp only at hr ⊢
      refine ⟨by simp, ?_⟩
      have e : u.recvBody c (some body) = { u with heap := h, mid := some (.invalid e (p.mem i) (ws.take (p.mem i).words)), matched := u.matched ++ [(u.reply, body)], rx := u.rx ++ [body], log := u.log ++ (done ++ [⟨p.mem i, ws.take (p.mem i).words, .err e⟩]), outcomes := u.outcomes ++ okOutcomes (done ++ [⟨p.mem i, ws.take (p.mem i).words, .err e⟩]) } := by
        unfold Tcp.recvBody
        rw [hu]
        simp only
        rw [if_neg (fun x => x.elim (fun y => y rfl) hw), hr]
        simp
      rw [e]
      refine { r with live := fun _ x => by simp [whole] at x, phase := ⟨rfl, rfl, ?_⟩ }
      simp [hl]

theorem like_popped (r : Like c p u) (h : u.heap = p.heap ∧ u.log = p.log) (k : Nat) (f : List (List Buf)) (b : List Nat) (q : List (List Nat)) :
    Like c { p with mid := none, inFlight := k, reply := b, replyQ := q } { u with mid := none, inFlight := k, finished := f, reply := b.map p.mem, replyQ := q.map (List.map p.mem) } :=
  { r with inFlight := rfl, reply := by simp, live := fun _ _ => rfl, replyQ := rfl, phase := ⟨rfl, h⟩ }

/-- The next chunk. (The old one is not looked at again, only its length.) -/
theorem like_pop (r : Like c p u) (h : u.heap = p.heap ∧ u.log = p.log) : Like c { p with mid := none }.pop { u with mid := none }.pop := by
  have e : ∀ k : Nat, k = p.inFlight + 2 ^ 32 - p.reply.length → u.inFlight + 2 ^ 32 - u.reply.length = k := by
    intro k hk
    rw [hk, r.inFlight, r.reply]
  unfold pop Tcp.pop
  simp only
  rw [e _ rfl, r.replyQ]
  generalize (p.inFlight + 2 ^ 32 - p.reply.length) % 2 ^ 32 = k
  cases hq : p.replyQ with
  | nil =>
    simp only [List.map_nil]
    have := like_popped r h k (u.finished ++ [u.reply]) [] []
    exact { this with replyQ := by simp [hq] }
  | cons b q =>
    simp only [List.map_cons]
    exact like_read (like_popped r h k (u.finished ++ [u.reply]) b q)

theorem like_quiet (r : Like c p u) : Like c (if p.disp = [] && p.reply = [] then { p with deadline := .armed, flushDone := true } else p)
    (if u.disp = [] && u.reply = [] then { u with deadline := .armed, flushDone := true } else u) := by
  obtain ⟨n1, n2, _⟩ := nil_iff r
  by_cases h : p.disp = [] ∧ p.reply = []
  · have h' : u.disp = [] ∧ u.reply = [] := ⟨n2.mpr h.1, n1.mpr h.2⟩
    rw [if_pos (by simp [h]), if_pos (by simp [h'])]
    exact { r with deadline := rfl, flushDone := rfl }
  · have h' : ¬ (u.disp = [] ∧ u.reply = []) := fun x => h ⟨n2.mp x.1, n1.mp x.2⟩
    rw [if_neg (by simpa using h), if_neg (by simpa using h')]
    exact r

theorem like_advance (r : Like c p u) (h : u.heap = p.heap ∧ u.log = p.log) (n N : Nat) : Like c ({ p with mid := none }.advance n N) ({ u with mid := none }.advance n N) := by
  have rp := like_pop r h
  revert rp
  unfold advance Tcp.advance
  generalize ({ p with mid := none } : TcpP).pop = p
  generalize ({ u with mid := none } : Tcp).pop = u
  intro rp
  simp only
  have e1 : (decide (u.disp = []) && u.canWrite n N) = (decide (p.disp = []) && p.canWrite n N) := by
    rw [canWrite_eq rp, decide_eq_decide.mpr (nil_iff rp).2.1]
  rw [e1]
  by_cases h : (decide (p.disp = []) && p.canWrite n N) = true
  · rw [if_pos h, if_pos h]
    exact like_quiet (like_write rp n)
  · rw [if_neg h, if_neg h]
    exact like_quiet rp

theorem like_recvEnd (o : Own p) (r : Like c p u) (n N : Nat) (hc : ∀ i is ws b, p.mid ≠ some (.check (i :: is) ws b)) : Like c (p.recvEnd n N) (u.recvEnd n N) := by
  have hq := r.phase
  cases hm : p.mid with
  | none =>
    have hu := r.idle.mpr hm
    simpa [recvEnd, Tcp.recvEnd, hm, hu] using r
  | some m =>
    rw [hm] at hq
    cases m with
    | body k =>
      have hu : u.mid = some (.body k) := hq.1
      simpa [recvEnd, Tcp.recvEnd, hm, hu] using r
    | failed =>
      have hu : u.mid = some .failed := hq.1
      simp only [recvEnd, Tcp.recvEnd, hm, hu]
      have rc := like_close r
      refine like_fail (p := { p.close with mid := none }) (u := { u.close with mid := none }) { rc with live := ?_, phase := ⟨rfl, hq.2⟩ } _ _
      intro a _
      exact r.live a (by rw [hm]; rfl)
    | invalid e b ws =>
      have hu : u.mid = some (.invalid e b ws) := hq.1
      simp only [recvEnd, Tcp.recvEnd, hm, hu]
      exact { r with exc := rfl, live := fun a _ => by simp at a, phase := ⟨rfl, hq.2⟩ }
    | notify =>
      have hu : u.mid = some .notify := hq.1
      simp only [recvEnd, Tcp.recvEnd, hm, hu]
      refine { r with flushDone := rfl, live := fun a _ => ?_, phase := ⟨rfl, hq.2⟩ }
      have h0 := o.note hm a
      have h1 := (nil_iff r).1.mpr h0
      show u.reply = p.reply.map p.mem
      rw [h0, h1]
      rfl
    | check todo ws b =>
      cases todo with
      | cons i is => exact absurd hm (hc i is ws b)
      | nil =>
        have hu : u.mid = some .last := hq.1
        simp only [recvEnd, Tcp.recvEnd, hm, hu]
        exact like_advance r hq.2 n N

theorem like_timeout (r : Like c p u) : Like c p.timeout u.timeout := by
  unfold timeout Tcp.timeout
  rw [r.deadline]
  cases h : p.deadline with
  | armed => exact { like_close r with deadline := rfl }
  | inf => exact r

/-- After `connect`. -/
def connected (p : TcpP) : TcpP := if p.sock then p else { p with sock := true, deadline := .armed }

/-- A packet put into the queue. -/
def enqueue (n maxN i : Nat) (p : TcpP) : TcpP :=
  let p := { p with cur := none, flushStarted := false, dispQ := p.dispQ ++ [i], dispatched := p.dispatched ++ [p.mem i] }
  if p.disp = [] && (decide (n ≤ p.dispQ.length) && decide (p.inFlight < maxN)) then p.write n else p

theorem dispatch_eq (n N : Nat) (conn : Bool) {i : Nat} (hc : p.cur = some i) :
    p.dispatch n N conn = if p.exc.isSome then { p with pc := .thrown } else if p.sock = false ∧ conn = false then { p with pc := .thrown, deadline := .armed }
      else p.connected.enqueue n N i := by
  unfold dispatch
  split
  · rename_i h; rw [h] at hc; cases hc
  · rename_i j h
    have : j = i := by rw [h] at hc; exact Option.some.inj hc
    subst this
    split
    · rename_i e he
      rw [if_pos (by rw [he]; rfl)]
    · rename_i he
      rw [if_neg (show ¬ p.exc.isSome = true by rw [he]; simp)]
      rfl

theorem udispatch_eq (n N : Nat) (b : Buf) (conn : Bool) :
    (match u.dispatch n N b conn with | .ok _ u' => u' | .exc _ u' => u' | _ => u) =
      if u.exc.isSome then { u with pc := .thrown } else if u.sock = false ∧ conn = false then { u with pc := .thrown, deadline := .armed }
      else u.connected.enqueue n N b := by
  rw [Tcp.dispatch_eq]
  by_cases he : u.exc.isSome = true
  · rw [if_pos he]
    split
    · rename_i h; split at h
      · cases h
      · rename_i h2; rw [h2] at he; simp at he
    · rename_i h; split at h
      · cases h; rfl
      · rename_i h2; rw [h2] at he; simp at he
    · rename_i h1 h2
      split at h2
      · exact absurd rfl (h2 _ _)
      · rename_i h3; rw [h3] at he; simp at he
  · rw [if_neg he]
    have he' : u.exc = none := by cases h : u.exc <;> simp [h] at he ⊢
    simp only [he']
    by_cases hs : u.sock = false ∧ conn = false
    · rw [if_pos hs, if_pos hs]
    · rw [if_neg hs, if_neg hs]

theorem like_connected (r : Like c p u) : Like c p.connected u.connected := by
  unfold connected Tcp.connected
  by_cases hk : p.sock = true
  · rw [if_pos hk, if_pos (show u.sock = true by rw [r.sock]; exact hk)]
    exact r
  · rw [if_neg hk, if_neg (show ¬ u.sock = true by rw [r.sock]; exact hk)]
    exact { r with sock := rfl, deadline := rfl }

theorem like_enqueue (r : Like c p u) (n N i : Nat) : Like c (p.enqueue n N i) (u.enqueue n N (p.mem i)) := by
  have r2 : Like c { p with cur := none, flushStarted := false, dispQ := p.dispQ ++ [i], dispatched := p.dispatched ++ [p.mem i] }
      { u with flushStarted := false, dispQ := u.dispQ ++ [p.mem i], dispatched := u.dispatched ++ [p.mem i] } :=
    { r with flushStarted := rfl, dispQ := by simp [r.dispQ], dispatched := by simp [r.dispatched] }
  unfold enqueue Tcp.enqueue
  simp only
  have e1 : (decide (u.disp = []) && (decide (n ≤ (u.dispQ ++ [p.mem i]).length) && decide (u.inFlight < N))) =
      (decide (p.disp = []) && (decide (n ≤ (p.dispQ ++ [i]).length) && decide (p.inFlight < N))) := by
    simp [r.dispQ, r.disp, r.inFlight]
  rw [e1]
  by_cases hx : (decide (p.disp = []) && (decide (n ≤ (p.dispQ ++ [i]).length) && decide (p.inFlight < N))) = true
  · rw [if_pos hx, if_pos hx]
    exact like_write r2 n
  · rw [if_neg hx, if_neg hx]
    exact r2

theorem like_dispatch (r : Like c p u) (n N : Nat) (conn : Bool) {i : Nat} (hc : p.cur = some i) :
    Like c (p.dispatch n N conn) (match u.dispatch n N (p.mem i) conn with | .ok _ u' => u' | .exc _ u' => u' | _ => u) := by
  rw [dispatch_eq n N conn hc, udispatch_eq]
  have xe := r.exc
  have xs := r.sock
  by_cases he : p.exc.isSome = true
  · rw [if_pos he, if_pos (show u.exc.isSome = true by rw [xe]; exact he)]
    exact { r with pc := rfl }
  · rw [if_neg he, if_neg (show ¬ u.exc.isSome = true by rw [xe]; exact he)]
    by_cases hs : p.sock = false ∧ conn = false
    · rw [if_pos hs, if_pos (show u.sock = false ∧ conn = false by rw [xs]; exact hs)]
      exact { r with pc := rfl, deadline := rfl }
    · rw [if_neg hs, if_neg (show ¬ (u.sock = false ∧ conn = false) by rw [xs]; exact hs)]
      have em : p.connected.mem = p.mem := by unfold connected; split <;> rfl
      rw [← em]
      exact like_enqueue (like_connected r) n N i

theorem like_flushStart (r : Like c p u) (n : Nat) : Like c (p.flushStart n) (u.flushStart n) := by
  have r1 : Like c { p with flushStarted := true, pc := .flushing } { u with flushStarted := true, pc := .flushing } := { r with flushStarted := rfl, pc := rfl }
  obtain ⟨_, n2, n3⟩ := nil_iff r
  unfold flushStart Tcp.flushStart
  simp only
  by_cases h : p.dispQ ≠ [] ∧ p.disp = []
  · rw [if_pos h, if_pos (show u.dispQ ≠ [] ∧ u.disp = [] from ⟨fun x => h.1 (n3.mp x), n2.mpr h.2⟩)]
    exact like_write r1 n
  · rw [if_neg h, if_neg (show ¬ (u.dispQ ≠ [] ∧ u.disp = []) from fun x => h ⟨fun y => x.1 (n3.mpr y), n2.mp x.2⟩)]
    exact r1

theorem like_flushEnd (r : Like c p u) : Like c p.flushEnd (match u.flushEnd with | .ok _ u' => u' | .exc _ u' => u' | _ => u) := by
  have e1 : p.flushEnd = if p.flushDone then (if p.exc.isSome then { p with pc := .thrown } else { p with pc := .idle }) else p := by
    unfold flushEnd
    split
    · split
      · rename_i h; rw [if_pos (show p.exc.isSome = true by rw [h]; rfl)]
      · rename_i h; rw [if_neg (show ¬ p.exc.isSome = true by rw [h]; simp)]
    · rfl
  have e2 : (match u.flushEnd with | .ok _ u' => u' | .exc _ u' => u' | _ => u) =
      if u.flushDone then (if u.exc.isSome then { u with pc := .thrown } else { u with pc := .idle }) else u := by
    rcases flushEnd_cases u with h | h | ⟨e, h⟩
    all_goals
      rw [h]
      unfold Tcp.flushEnd at h
      by_cases h1 : u.flushDone = true
      · rw [if_pos h1] at h ⊢
        split at h
        · rename_i h2
          first | (cases h; done) | rw [if_pos (show u.exc.isSome = true by rw [h2]; rfl)]
        · rename_i h2
          first | (cases h; done) | rw [if_neg (show ¬ u.exc.isSome = true by rw [h2]; simp)]
      · rw [if_neg h1] at h ⊢
        first | done | (cases h; done)
  rw [e1, e2]
  have xf := r.flushDone
  have xe := r.exc
  by_cases h : p.flushDone = true
  · rw [if_pos h, if_pos (show u.flushDone = true by rw [xf]; exact h)]
    by_cases he : p.exc.isSome = true
    · rw [if_pos he, if_pos (show u.exc.isSome = true by rw [xe]; exact he)]
      exact { r with pc := rfl }
    · rw [if_neg he, if_neg (show ¬ u.exc.isSome = true by rw [xe]; exact he)]
      exact { r with pc := rfl }
  · rw [if_neg h, if_neg (show ¬ u.flushDone = true by rw [xf]; exact h)]
    exact r

/-- There are packets of the chunk still to be validated. -/
def checking : Option PMid → Bool
  | some (.check (_ :: _) _ _) => true
  | _ => false

theorem checking_iff (m : Option PMid) : checking m = true ↔ ∃ i is ws b, m = some (.check (i :: is) ws b) := by
  cases m with
  | none => simp [checking]
  | some m =>
    cases m with
    | check todo ws b => cases todo <;> simp [checking]
    | _ => simp [checking]

/-- The step of `Tcp` that corresponds to a step. -/
def toTcp (c : Cfg) (p : TcpP) : Act → Option TAct
  | .take => none
  | .fill _ => none
  | .dispatch conn => p.cur.map fun i => .dispatch (p.mem i) conn
  | .flushStart => some .flushStart
  | .flushEnd => some .flushEnd
  | .handler => some .handler
  | .net (.sendDone ok) => some (.ev (.sendDone ok))
  | .net (.recvHdr r) => some (.ev (.recvHdr r))
  | .net .timeout => if checking p.mid then none else some (.ev .timeout)
  | .net (.recvBody r) => if checking (p.recvBody r).mid then none else some (.ev (.recvBody r))
  | .net .valid => match p.mid, p.held with
    | some (.check (_ :: _) _ body), none => if checking (p.valid c).mid then none else some (.ev (.recvBody (some body)))
    | _, _ => none
  | .net .giveBack => none
  | .net .recvEnd => if p.held.isSome || checking p.mid then none else some (.ev .recvEnd)

/-- The two correspond, unless the behaviour of the first one is undefined. -/
def Sim (c : Cfg) (p : TcpP) (u : Tcp) : Prop := p.crashed = true ∨ Like c p u

theorem sim_act (o : Own p) (r : Like c p u) (hc : p.crashed = false) (n N : Nat) (a : Act) :
    Sim c (p.act c n N a) (match p.toTcp c a with | none => u | some b => u.act c n N b) := by
  have hu := r.crashed
  have hpc := r.pc
  cases a with
  | take => right; simpa [act, hc, toTcp] using like_take o r
  | fill f => right; simpa [act, hc, toTcp] using like_fill o r f
  | dispatch conn =>
    right
    cases hcur : p.cur with
    | none =>
      have : p.dispatch n N conn = p := by unfold dispatch; rw [hcur]
      simpa [act, hc, toTcp, hcur, this] using r
    | some i =>
      by_cases hi : p.pc = .idle
      · have h := like_dispatch r n N conn hcur
        have e : u.act c n N (.dispatch (p.mem i) conn) = match u.dispatch n N (p.mem i) conn with | .ok _ u' => u' | .exc _ u' => u' | _ => u := by
          simp only [Tcp.act, hu, hpc, hi, Bool.false_eq_true, if_false, if_true]
          cases u.dispatch n N (p.mem i) conn <;> rfl
        simp only [toTcp, hcur, Option.map_some]
        rw [e]
        simpa [act, hc, hi] using h
      · simpa [act, hc, toTcp, hcur, Tcp.act, hu, hpc, hi] using r
  | flushStart =>
    right
    by_cases hi : p.pc = .idle
    · simpa [act, hc, toTcp, Tcp.act, hu, hpc, hi] using like_flushStart r n
    · simpa [act, hc, toTcp, Tcp.act, hu, hpc, hi] using r
  | flushEnd =>
    right
    by_cases hi : p.pc = .flushing
    · have h := like_flushEnd r
      have e : u.act c n N .flushEnd = match u.flushEnd with | .ok _ u' => u' | .exc _ u' => u' | _ => u := by
        simp only [Tcp.act, hu, hpc, hi, Bool.false_eq_true, if_false, if_true]
        cases u.flushEnd <;> rfl
      simp only [toTcp]
      rw [e]
      simpa [act, hc, hi] using h
    · simpa [act, hc, toTcp, Tcp.act, hu, hpc, hi] using r
  | handler =>
    by_cases hi : p.pc = .thrown
    · rcases handler_eq p with e | ⟨e, hh⟩
      · left; simp [act, hc, hi, e]
      · right
        simpa [act, hc, toTcp, Tcp.act, hu, hpc, hi, e] using like_cleared r hh
    · right
      simpa [act, hc, toTcp, Tcp.act, hu, hpc, hi] using r
  | net e =>
    cases hm : p.mid with
    | none =>
      right
      have hv : u.mid = none := r.idle.mpr hm
      cases e with
      | sendDone ok => simpa [act, hc, toTcp, Tcp.act, Tcp.ev, net, hu, hm, hv] using like_sendDone r hm n N ok
      | recvHdr x => simpa [act, hc, toTcp, Tcp.act, Tcp.ev, net, hu, hm, hv] using like_recvHdr r hm x
      | timeout => simpa [act, hc, toTcp, checking, Tcp.act, Tcp.ev, net, hu, hm, hv] using like_timeout r
      | recvBody x => simpa [act, hc, toTcp, checking, recvBody, Tcp.act, Tcp.ev, net, hu, hm, hv] using r
      | valid => simpa [act, hc, toTcp, Tcp.act, Tcp.ev, net, hu, hm, hv] using r
      | giveBack => simpa [act, hc, toTcp, net, hm] using like_giveBack r
      | recvEnd =>
        have hh := held_none o hm
        simpa [act, hc, toTcp, checking, Tcp.act, Tcp.ev, net, hu, hm, hv, hh] using r
    | some m =>
      obtain ⟨m', hv⟩ : ∃ m', u.mid = some m' := by
        cases hx : u.mid with
        | none => rw [r.idle.mp hx] at hm; cases hm
        | some m' => exact ⟨m', rfl⟩
      cases e with
      | sendDone ok => right; simpa [act, hc, toTcp, Tcp.act, Tcp.ev, net, hu, hm, hv] using r
      | recvHdr x => right; simpa [act, hc, toTcp, Tcp.act, Tcp.ev, net, hu, hm, hv] using r
      | timeout =>
        right
        have e1 : p.act c n N (.net .timeout) = p := by simp [act, hc, net, hm]
        rw [e1]
        have e2 : u.act c n N (.ev .timeout) = u := by simp [Tcp.act, Tcp.ev, hu, hv]
        simp only [toTcp]
        split
        · exact r
        · rename_i h
          split at h
          · cases h
          · cases h; rw [e2]; exact r
      | recvBody x =>
        right
        have e1 : p.act c n N (.net (.recvBody x)) = p.recvBody x := by simp [act, hc, net, hm]
        have e2 : u.act c n N (.ev (.recvBody x)) = u.recvBody c x := by simp [Tcp.act, Tcp.ev, hu, hv]
        rw [e1]
        rcases like_recvBody o r x with ⟨i, is, ws, b, h1, h2⟩ | ⟨h1, h2⟩
        · have hk : checking (p.recvBody x).mid = true := (checking_iff _).mpr ⟨i, is, ws, b, h1⟩
          simpa only [toTcp, hk, if_true] using h2
        · have hk : ¬ checking (p.recvBody x).mid = true := fun h => by
            obtain ⟨i, is, ws, b, h⟩ := (checking_iff _).mp h
            exact h1 i is ws b h
          simp only [toTcp, if_neg hk]
          rw [e2]
          exact h2
      | valid =>
        have e1 : p.act c n N (.net .valid) = p.valid c := by simp [act, hc, net, hm]
        rw [e1]
        by_cases hx : ∃ i is ws b, p.mid = some (.check (i :: is) ws b) ∧ p.held = none
        · obtain ⟨i, is, ws, b, h1, h2⟩ := hx
          have e2 : u.act c n N (.ev (.recvBody (some b))) = u.recvBody c (some b) := by simp [Tcp.act, Tcp.ev, hu, hv]
          rcases like_valid r h1 h2 with h3 | ⟨⟨j, js, ws', b', h4⟩, h3⟩ | ⟨h4, h3⟩
          · exact .inl h3
          · right
            have hk : checking (p.valid c).mid = true := (checking_iff _).mpr ⟨j, js, ws', b', h4⟩
            simpa only [toTcp, h1, h2, hk, if_true] using h3
          · right
            have hk : ¬ checking (p.valid c).mid = true := fun h => by
              obtain ⟨i, is, ws, b, h⟩ := (checking_iff _).mp h
              exact h4 i is ws b h
            simp only [toTcp, h1, h2, if_neg hk]
            rw [e2]
            exact h3
        · right
          have e2 : p.valid c = p := by
            unfold valid
            split
            · rename_i i is ws b h1 h2
              exact absurd ⟨i, is, ws, b, h1, h2⟩ hx
            · rfl
          have e3 : p.toTcp c (.net .valid) = none := by
            simp only [toTcp]
            split
            · rename_i i is b h1 h2
              exact absurd ⟨_, _, _, _, h1, h2⟩ hx
            · rfl
          rw [e2, e3]
          exact r
      | giveBack => right; simpa [act, hc, toTcp, net, hm] using like_giveBack r
      | recvEnd =>
        right
        have e1 : p.act c n N (.net .recvEnd) = if p.held.isSome then p else p.recvEnd n N := by simp [act, hc, net, hm]
        have e2 : u.act c n N (.ev .recvEnd) = u.recvEnd n N := by simp [Tcp.act, Tcp.ev, hu, hv]
        rw [e1]
        by_cases hh : p.held.isSome = true
        · simpa [toTcp, hh] using r
        · rw [if_neg hh]
          by_cases hk : checking p.mid = true
          · have e3 : p.recvEnd n N = p := by
              obtain ⟨i, is, ws, b, h⟩ := (checking_iff _).mp hk
              simp [recvEnd, h]
            rw [e3]
            simpa [toTcp, hk] using r
          · have h := like_recvEnd o r n N fun i is ws b h => hk ((checking_iff _).mpr ⟨i, is, ws, b, h⟩)
            simp only [Bool.not_eq_true] at hh hk
            simp only [toTcp, hh, hk, Bool.or_self, Bool.false_eq_true, if_false]
            rw [e2]
            exact h

theorem sim_step (o : Own p) (r : Sim c p u) (n N : Nat) (a : Act) : Sim c (p.act c n N a) (match p.toTcp c a with | none => u | some b => u.act c n N b) := by
  cases hc : p.crashed with
  | true =>
    left
    simp [act, hc]
  | false =>
    rcases r with r | r
    · simp [hc] at r
    · exact sim_act o r hc n N a

/-- What has been handed over has been sent, in this order and with the same contents, or waits to be. -/
def Kept (p : TcpP) : Prop := p.sent.flatten ++ p.dispQ.map p.mem = p.dispatched

theorem kept_put (h : Kept p) {i : Nat} (b : Buf) (hi : p.dispQ.count i = 0) : Kept (p.put i b) := by
  unfold Kept
  have : (p.put i b).dispQ.map (p.put i b).mem = p.dispQ.map p.mem := UdpP.map_put hi
  rw [this]
  exact h

theorem kept_write (h : Kept p) (n : Nat) : Kept (p.write n) := by
  unfold Kept at h ⊢
  simp only [write, List.flatten_append, List.flatten_cons, List.flatten_nil, List.append_nil, List.append_assoc, ← List.map_append, List.take_append_drop]
  exact h

theorem kept_handOver (h : Kept p) : Kept p.handOver := by
  unfold handOver
  split <;> exact h

theorem kept_act (o : Own p) (h : Kept p) (n N : Nat) (a : Act) : Kept (p.act c n N a) := by
  unfold act
  split
  · exact h
  · cases a with
    | take =>
      have hs : Kept p.stock := by
        unfold stock
        split <;> exact h
      have os := own_stock o
      show Kept p.take
      unfold take
      split
      · exact h
      · split
        · exact hs
        · rename_i i is e
          have h1 := os.one i
          simp only [owns, e, List.count_cons, beq_self_eq_true, if_true] at h1
          refine kept_put (p := { p.stock with pool := is, cur := some i }) hs _ ?_
          show p.stock.dispQ.count i = 0
          omega
    | fill f =>
      show Kept (p.fill f)
      unfold fill
      split
      · exact h
      · rename_i i e
        have h1 := o.one i
        simp only [owns, e, Option.toList_some, List.count_cons, List.count_nil, beq_self_eq_true, if_true] at h1
        exact kept_put h _ (by omega)
    | dispatch conn =>
      simp only
      split
      · cases hcur : p.cur with
        | none =>
          have : p.dispatch n N conn = p := by unfold dispatch; rw [hcur]
          rw [this]
          exact h
        | some i =>
          rw [dispatch_eq n N conn hcur]
          split
          · exact h
          · split
            · exact h
            · have h1 : Kept p.connected := by unfold connected; split <;> exact h
              have h2 : Kept { p.connected with cur := none, flushStarted := false, dispQ := p.connected.dispQ ++ [i], dispatched := p.connected.dispatched ++ [p.connected.mem i] } := by
                unfold Kept at h1 ⊢
                simp [← h1]
              unfold enqueue
              simp only
              split
              · exact kept_write h2 n
              · exact h2
      · exact h
    | flushStart =>
      simp only
      split
      · unfold flushStart
        simp only
        split
        · exact kept_write (p := { p with flushStarted := true, pc := .flushing }) h n
        · exact h
      · exact h
    | flushEnd =>
      simp only
      split
      · unfold flushEnd
        repeat' split
        all_goals exact h
      · exact h
    | handler =>
      simp only
      split
      · rcases handler_eq p with e | ⟨e, _⟩
        · rw [e]; exact h
        · rw [e]; rfl
      · exact h
    | net e =>
      show Kept (p.net c n N e)
      unfold net
      split
      · unfold sendDone
        split
        · exact h
        · rename_i o' ops _
          have h' : Kept { p with sendOps := ops } := h
          simp only
          repeat' split
          all_goals first | exact h | exact kept_write (kept_handOver h') n | exact kept_handOver h'
      · unfold recvHdr
        split
        · exact h
        · simp only
          repeat' split
          all_goals exact h
      · unfold timeout
        split <;> exact h
      · unfold recvBody
        repeat' split
        all_goals exact h
      · unfold valid
        repeat' split
        all_goals exact h
      · unfold giveBack
        split <;> exact h
      · split
        · exact h
        · unfold recvEnd
          split
          · exact h
          · exact h
          · exact h
          · have hp : Kept { p with mid := none }.pop := by
              unfold pop
              simp only
              split <;> exact h
            have key : ∀ q : TcpP, Kept q → Kept (if q.disp = [] && q.reply = [] then { q with deadline := .armed, flushDone := true } else q) := by
              intro q h
              split <;> exact h
            unfold advance
            simp only
            apply key
            split
            · exact kept_write hp n
            · exact hp
          · exact h
      · exact h

end TcpP
end Verif
