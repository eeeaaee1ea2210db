import Verif.Lemmas.HubFirst
/-!
# C55. ControlHub: every request given to a device client is answered exactly once

The whole life of a device client (`Verif/Model/HubFirst.lean`): the first request and the status exchange it causes, the loops for
IPbus 2.0 and IPbus 1.3, the end. Nothing is assumed about the UDP packets that arrive.
-/

set_option autoImplicit false
set_option linter.unusedSimpArgs false

namespace Verif.Hub

/-! ## What is claimed -/

/-- The clients of the requests that are cast while the process exists, in order. -/
def heard (absMax : Nat) (d : DC) : List DEv → List Nat
  | [] => []
  | e :: es => (if d.gone then [] else e.pids) ++
    match d.step absMax e with
    | some r => heard absMax r.1 es
    | none => []

/-- The process has ended without an error. -/
def DC.stopped (d : DC) : Prop := d.phase = .ended ∨ (d.phase = .two ∧ d.h.mode = .stopped)

/-- The process has ended with an error: something did not match. -/
def DC.broken (d : DC) : Prop := (∃ pid, d.phase = .failed pid) ∨ (d.phase = .two ∧ d.h.mode = .crashed)

/-! ## Proofs -/

theorem gone_iff (d : DC) : d.gone = true ↔ d.stopped ∨ d.broken := by
  cases hp : d.phase <;> simp [DC.gone, DC.stopped, DC.broken, hp]

/-- Nothing happens to a process that is gone. -/
theorem gone_step {absMax : Nat} {d : DC} {e : DEv} {r : DC × List Bytes} (hg : d.gone = true) (hs : d.step absMax e = some r) :
    r = (d, []) := by
  cases e <;> simp [DC.step, hg] at hs
  exact hs.symm

theorem run_gone {absMax : Nat} (es : List DEv) : ∀ (d : DC) (r : DC × List Bytes), d.gone = true → d.run absMax es = some r →
    r = (d, []) ∧ heard absMax d es = [] := by
  induction es with
  | nil => intro d r _ h; simp only [DC.run, Option.some.injEq] at h; exact ⟨h.symm, rfl⟩
  | cons e es ih =>
    intro d r hg h
    simp only [DC.run] at h
    cases hs : d.step absMax e with
    | none => simp [hs] at h
    | some d1 =>
      have := gone_step hg hs
      subst this
      simp only [hs, List.nil_append, Option.map_eq_some_iff] at h
      obtain ⟨r', h', rfl⟩ := h
      obtain ⟨h1, h2⟩ := ih d r' hg h'
      refine ⟨by rw [h1], ?_⟩
      simp [heard, hs, h2, hg]

theorem run_tally {absMax : Nat} (es : List DEv) : ∀ (d d' : DC) (out : List Bytes), Ok d → d.run absMax es = some (d', out) →
    Ok d' ∧ ∀ x, d'.tally x = d.tally x + (heard absMax d es).count x := by
  induction es with
  | nil =>
    intro d d' out h hr
    simp only [DC.run, Option.some.injEq, Prod.mk.injEq] at hr
    obtain ⟨rfl, _⟩ := hr
    exact ⟨h, fun x => by simp [heard]⟩
  | cons e es ih =>
    intro d d' out h hr
    cases hg : d.gone with
    | true =>
      obtain ⟨h1, h2⟩ := run_gone (e :: es) d _ hg hr
      simp only [Prod.mk.injEq] at h1
      obtain ⟨rfl, _⟩ := h1
      exact ⟨h, fun x => by simp [h2]⟩
    | false =>
      simp only [DC.run] at hr
      cases hs : d.step absMax e with
      | none => simp [hs] at hr
      | some d1 =>
        obtain ⟨d1, out1⟩ := d1
        simp only [hs, Option.map_eq_some_iff] at hr
        obtain ⟨⟨d2, out2⟩, hr', heq⟩ := hr
        simp only [Prod.mk.injEq] at heq
        obtain ⟨rfl, _⟩ := heq
        obtain ⟨g1, g2⟩ := step_tally h hg hs
        obtain ⟨k1, k2⟩ := ih d1 d2 out2 g1 hr'
        refine ⟨k1, fun x => ?_⟩
        rw [k2, g2]
        simp only [heard, hs, List.count_append, hg, Bool.false_eq_true, if_false]
        omega

/-- **C55, one answer per request.** At any time, the clients that have been sent an answer together with those that are waiting are the
clients of all requests that were cast while the process existed, with multiplicity. -/
theorem C55_one_answer {absMax : Nat} {es : List DEv} {d : DC} {out : List Bytes} (hr : DC.init.run absMax es = some (d, out)) :
    (d.msgs.map (·.pid) ++ d.waiting).Perm (heard absMax DC.init es) := by
  obtain ⟨_, h⟩ := run_tally es _ _ _ Ok.init hr
  rw [List.perm_iff_count]
  intro x
  have := h x
  rw [List.count_append]
  simpa [DC.tally, DC.init, DC.msgs, DC.waiting, DC.held] using this

theorem forward_not_stopped (h : Hub) (p : Bytes) (hm : h.mode = .normal) : (h.forward p).mode ≠ .stopped := by
  unfold Hub.forward
  split
  · simp [hm]
  · split
    · simp
    · split <;> simp [hm]

theorem after_inbox {d : DC} {old : Hub} {code : Nat} (hm : (d.after old code).h.mode = .stopped) (ho : old.mode ≠ .normal ∨ d.inbox = []) :
    (d.after old code).inbox = [] := by
  unfold DC.after at *
  split
  · rfl
  · rename_i hc
    rw [if_neg hc] at hm
    rcases ho with ho | ho
    · exact absurd ⟨hm, ho⟩ hc
    · exact ho

/-- When the process ends, its mailbox has been emptied. -/
theorem step_stopped {absMax : Nat} {d d' : DC} {out : List Bytes} {e : DEv} (hg : d.gone = false)
    (hs : d.step absMax e = some (d', out)) (hd : d'.stopped) : d'.inbox = [] := by
  have hnot : ¬ d.stopped := fun h => by rw [(gone_iff d).mpr (.inl h)] at hg; cases hg
  cases e with
  | cast pkt pid =>
    simp only [DC.step, hg, Bool.false_eq_true, if_false, Option.some.injEq, Prod.mk.injEq] at hs
    obtain ⟨rfl, _⟩ := hs
    exact absurd hd hnot
  | take =>
    simp only [DC.step, hg, Bool.false_eq_true, if_false, DC.take] at hs
    cases hi : d.inbox with
    | nil => simp [hi] at hs
    | cons y r =>
      simp only [hi] at hs
      cases hp : d.phase with
      | idle =>
        simp only [hp] at hs
        split at hs <;> simp only [Option.some.injEq, Prod.mk.injEq] at hs <;> obtain ⟨rfl, _⟩ := hs <;> simp [DC.stopped] at hd
      | two =>
        simp only [hp] at hs
        split at hs
        · rename_i hc
          simp only [Option.some.injEq, Prod.mk.injEq] at hs
          obtain ⟨rfl, _⟩ := hs
          exfalso
          simp only [DC.stopped, Hub.sendRequest] at hd
          split at hd <;> simp [hc.1] at hd
        · cases hs
      | one n =>
        cases n with
        | none =>
          simp only [hp] at hs
          split at hs
          · simp only [Option.some.injEq, DC.send13] at hs
            split at hs <;> simp only [Prod.mk.injEq] at hs <;> obtain ⟨rfl, _⟩ := hs <;> simp [DC.stopped] at hd
          · cases hs
        | some k => simp [hp] at hs
      | asking v l p i => simp [hp] at hs
      | ended => simp [hp] at hs
      | failed p => simp [hp] at hs
  | udp p =>
    simp only [DC.step, hg, Bool.false_eq_true, if_false, DC.udp] at hs
    cases hp : d.phase with
    | asking v l pkt pid =>
      simp only [hp] at hs
      split at hs
      · split at hs
        · simp only [Option.some.injEq, DC.send13] at hs
          split at hs <;> simp only [Prod.mk.injEq] at hs <;> obtain ⟨rfl, _⟩ := hs <;> simp [DC.stopped] at hd
        · split at hs
          · simp only [Option.some.injEq, Prod.mk.injEq] at hs
            obtain ⟨rfl, _⟩ := hs
            simp [DC.stopped] at hd
          · simp only [Option.some.injEq, Prod.mk.injEq] at hs
            obtain ⟨rfl, _⟩ := hs
            rfl
          · simp only [Option.some.injEq, Prod.mk.injEq] at hs
            obtain ⟨rfl, _⟩ := hs
            exfalso
            simp only [DC.stopped, Hub.sendRequest] at hd
            split at hd <;> simp at hd
      · cases hs
    | two =>
      simp only [hp] at hs
      split at hs
      · simp only [Option.some.injEq, Prod.mk.injEq] at hs
        obtain ⟨rfl, _⟩ := hs
        rcases hd with hd | ⟨_, hd⟩
        · exfalso
          unfold DC.after DC.drain at hd
          split at hd <;> simp at hd
        · by_cases hm : d.h.mode = .normal
          · exfalso
            have : (DC.after { d with phase := .two, h := (d.h.recv p).1 } d.h 5).h.mode = (d.h.recv p).1.mode := by
              unfold DC.after DC.drain; split <;> rfl
            rw [this] at hd
            simp only [Hub.recv, hm] at hd
            exact forward_not_stopped d.h p hm hd
          · exact after_inbox hd (.inl hm)
      · cases hs
    | one n =>
      simp only [hp, Option.some.injEq, Prod.mk.injEq] at hs
      obtain ⟨rfl, _⟩ := hs
      simp [DC.stopped] at hd
    | idle => simp [hp] at hs
    | ended => simp [hp] at hs
    | failed q => simp [hp] at hs
  | timeout =>
    simp only [DC.step, hg, Bool.false_eq_true, if_false, DC.timeout] at hs
    cases hp : d.phase with
    | asking v l pkt pid =>
      simp only [hp] at hs
      split at hs
      · simp only [Option.some.injEq, Prod.mk.injEq] at hs
        obtain ⟨rfl, _⟩ := hs
        rfl
      · simp only [Option.some.injEq, Prod.mk.injEq] at hs
        obtain ⟨rfl, _⟩ := hs
        simp [DC.stopped] at hd
    | two =>
      simp only [hp] at hs
      split at hs
      · cases hs
      · split at hs
        · cases hs
        · rename_i hc
          simp only [Option.some.injEq, Prod.mk.injEq] at hs
          obtain ⟨rfl, _⟩ := hs
          rcases hd with hd | ⟨_, hd⟩
          · exfalso
            unfold DC.after DC.drain at hd
            split at hd <;> simp at hd
          · by_cases hm : d.h.mode = .normal
            · refine after_inbox hd (.inr ?_)
              have : ∀ c, (DC.after { d with phase := .two, h := d.h.timeout.1 } d.h c).h.mode = d.h.timeout.1.mode := by
                intro c; unfold DC.after DC.drain; split <;> rfl
              rw [this] at hd
              simp only [Hub.timeout, hm] at hd
              split at hd
              · simp at hd
              · rename_i hz
                simp only [hm, true_and, not_and, Decidable.not_not] at hc
                exact hc (by omega)
            · exact after_inbox hd (.inl hm)
    | one n =>
      simp only [hp] at hs
      cases hf : d.flight with
      | none =>
        simp only [hf] at hs
        split at hs
        · rename_i hi
          simp only [Option.some.injEq, Prod.mk.injEq] at hs
          obtain ⟨rfl, _⟩ := hs
          exact hi
        · cases hs
      | some f =>
        simp only [hf] at hs
        cases n with
        | none =>
          simp only [Option.some.injEq, Prod.mk.injEq] at hs
          obtain ⟨rfl, _⟩ := hs
          simp [DC.stopped] at hd
        | some k =>
          simp only at hs
          split at hs
          · simp only [Option.some.injEq, Prod.mk.injEq] at hs
            obtain ⟨rfl, _⟩ := hs
            rfl
          · simp only [Option.some.injEq, Prod.mk.injEq] at hs
            obtain ⟨rfl, _⟩ := hs
            simp [DC.stopped] at hd
    | idle => simp [hp] at hs
    | ended => simp [hp] at hs
    | failed q => simp [hp] at hs

theorem run_stopped {absMax : Nat} (es : List DEv) : ∀ (d d' : DC) (out : List Bytes), d.gone = false →
    d.run absMax es = some (d', out) → d'.stopped → d'.inbox = [] := by
  induction es with
  | nil =>
    intro d d' out hg hr hd
    simp only [DC.run, Option.some.injEq, Prod.mk.injEq] at hr
    obtain ⟨rfl, _⟩ := hr
    rw [(gone_iff d).mpr (.inl hd)] at hg
    cases hg
  | cons e es ih =>
    intro d d' out hg hr hd
    simp only [DC.run] at hr
    cases hs : d.step absMax e with
    | none => simp [hs] at hr
    | some d1 =>
      obtain ⟨d1, out1⟩ := d1
      simp only [hs, Option.map_eq_some_iff] at hr
      obtain ⟨⟨d2, out2⟩, hr', heq⟩ := hr
      simp only [Prod.mk.injEq] at heq
      obtain ⟨rfl, _⟩ := heq
      cases hg1 : d1.gone with
      | false => exact ih d1 d2 out2 hg1 hr' hd
      | true =>
        obtain ⟨h1, _⟩ := run_gone es d1 _ hg1 hr'
        simp only [Prod.mk.injEq] at h1
        obtain ⟨rfl, _⟩ := h1
        exact step_stopped hg hs hd

/-- **C55, nobody is left waiting.** When the process has ended without an error, every request that was cast before has been answered
exactly once. -/
theorem C55_ended_partial {absMax : Nat} {es : List DEv} {d : DC} {out : List Bytes} (hr : DC.init.run absMax es = some (d, out))
    (hd : d.stopped) : (d.msgs.map (·.pid)).Perm (heard absMax DC.init es) := by
  have hw : d.waiting = [] := by
    have hi := run_stopped es _ _ _ rfl hr hd
    rcases hd with hd | ⟨hd, hm⟩
    · simp [DC.waiting, DC.held, hd, hi]
    · simp [DC.waiting, DC.held, hd, hi, Hub.waiting, hm]
  have := C55_one_answer hr
  rwa [hw, List.append_nil] at this

/-! ### The end comes -/

/-- The number of replies that have been forwarded. -/
def DC.forwarded (d : DC) : Nat := (d.msgs.filter (fun m => decide (m.code = 0))).length

/-- How often time runs out. -/
def ticks : List DEv → Nat
  | [] => 0
  | .timeout :: es => ticks es + 1
  | _ :: es => ticks es

/-- An upper bound for the number of timeouts until the process ends, unless a reply is forwarded. -/
def DC.rank (d : DC) : Nat :=
  match d.phase with
  | .idle => 36
  | .asking _ left _ _ => 31 + left
  | .two => Hub.rank d.h.mode
  | .one none => 4
  | .one (some k) => 3 - k
  | _ => 0

def dummyTgt : Tgt Unit := ⟨0, [], 0, (), []⟩

theorem recv_rank {h : Hub} (p : Bytes) (hl : Limited h.mode) (ht : h.takes p = true) :
    (h.out.filter (fun m => decide (m.code = 0))).length ≤ ((h.recv p).1.out.filter (fun m => decide (m.code = 0))).length ∧
    (((h.recv p).1.out.filter (fun m => decide (m.code = 0))).length = (h.out.filter (fun m => decide (m.code = 0))).length →
      Hub.rank (h.recv p).1.mode ≤ Hub.rank h.mode) := by
  obtain ⟨_, h2, h3⟩ := step_rank (exec := fun (u : Unit) _ => (u, [])) (s := ⟨h, dummyTgt, [], [(0, p)], []⟩) (ev := .toHub 0)
    (s' := ⟨(h.recv p).1, dummyTgt, (h.recv p).2.map fun b => (0, b), [(0, p)], []⟩) hl (by simp [Sys.step, ht])
  exact ⟨(h2.filter _).length_le, by simpa [timeouts] using h3⟩

theorem timeout_rank {h : Hub} (hl : Limited h.mode) (hne : ¬ (h.mode = .stopped ∨ h.mode = .crashed)) :
    (h.out.filter (fun m => decide (m.code = 0))).length ≤ (h.timeout.1.out.filter (fun m => decide (m.code = 0))).length ∧
    ((h.timeout.1.out.filter (fun m => decide (m.code = 0))).length = (h.out.filter (fun m => decide (m.code = 0))).length →
      Hub.rank h.timeout.1.mode + 1 ≤ Hub.rank h.mode) := by
  obtain ⟨_, h2, h3⟩ := step_rank (exec := fun (u : Unit) _ => (u, [])) (s := ⟨h, dummyTgt, [], [], []⟩) (ev := .timeout)
    (s' := ⟨h.timeout.1, dummyTgt, h.timeout.2.map fun b => (0, b), [], []⟩) hl (by simp [Sys.step, hne])
  exact ⟨(h2.filter _).length_le, by simpa [timeouts] using h3⟩

theorem filter_drain (l : List (Bytes × Nat)) {code : Nat} (hc : code ≠ 0) :
    (l.map (fun x => (⟨x.2, code, []⟩ : Msg))).filter (fun m => decide (m.code = 0)) = [] := by
  rw [List.filter_eq_nil_iff]
  intro m hm
  obtain ⟨x, _, rfl⟩ := List.mem_map.mp hm
  simp [hc]

theorem drain_forwarded (d : DC) {code : Nat} (hc : code ≠ 0) : (d.drain code).forwarded = d.forwarded := by
  simp [DC.drain, DC.forwarded, DC.msgs, filter_drain _ hc]

theorem after_forwarded (d : DC) (old : Hub) {code : Nat} (hc : code ≠ 0) : (d.after old code).forwarded = d.forwarded := by
  unfold DC.after
  split
  · exact drain_forwarded _ hc
  · rfl

theorem after_phase (d : DC) (old : Hub) (code : Nat) : (d.after old code).phase = d.phase ∧ (d.after old code).h = d.h := by
  unfold DC.after
  split <;> exact ⟨rfl, rfl⟩

theorem errCode_ne (m : Mode) : errCode m ≠ 0 := by
  unfold errCode
  split <;> (try split) <;> decide

theorem step_ticks {absMax : Nat} {d d' : DC} {out : List Bytes} {e : DEv} (h : Ok d) (hg : d.gone = false)
    (hs : d.step absMax e = some (d', out)) :
    d.forwarded ≤ d'.forwarded ∧ (d'.forwarded = d.forwarded → d'.rank + ticks [e] ≤ d.rank) := by
  cases e with
  | cast pkt pid =>
    simp only [DC.step, hg, Bool.false_eq_true, if_false, Option.some.injEq, Prod.mk.injEq] at hs
    obtain ⟨rfl, _⟩ := hs
    exact ⟨Nat.le_refl _, fun _ => by simp [ticks, DC.rank]⟩
  | take =>
    simp only [DC.step, hg, Bool.false_eq_true, if_false, DC.take] at hs
    cases hi : d.inbox with
    | nil => simp [hi] at hs
    | cons y r =>
      simp only [hi] at hs
      cases hp : d.phase with
      | idle =>
        simp only [hp] at hs
        split at hs <;> simp only [Option.some.injEq, Prod.mk.injEq] at hs <;> obtain ⟨rfl, _⟩ := hs <;>
          exact ⟨Nat.le_refl _, fun _ => by simp [ticks, DC.rank, hp]⟩
      | two =>
        simp only [hp] at hs
        split at hs
        · rename_i hc
          simp only [Option.some.injEq, Prod.mk.injEq] at hs
          obtain ⟨rfl, _⟩ := hs
          simp only [Hub.sendRequest]
          split
          · exact ⟨Nat.le_refl _, fun _ => by simp [ticks, DC.rank, hp]⟩
          · exact ⟨by simp [DC.forwarded, DC.msgs], fun _ => by simp [ticks, DC.rank, hp]⟩
        · cases hs
      | one n =>
        cases n with
        | none =>
          simp only [hp] at hs
          split at hs
          · simp only [Option.some.injEq, DC.send13] at hs
            split at hs <;> simp only [Prod.mk.injEq] at hs <;> obtain ⟨rfl, _⟩ := hs <;>
              exact ⟨by simp [DC.forwarded, DC.msgs], fun _ => by simp [ticks, DC.rank, hp]⟩
          · cases hs
        | some k => simp [hp] at hs
      | asking v l p i => simp [hp] at hs
      | ended => simp [hp] at hs
      | failed p => simp [hp] at hs
  | udp p =>
    simp only [DC.step, hg, Bool.false_eq_true, if_false, DC.udp] at hs
    cases hp : d.phase with
    | asking v l pkt pid =>
      obtain ⟨hq, ho, hm⟩ := h.first (by simp [hp])
      simp only [hp] at hs
      split at hs
      · split at hs
        · simp only [Option.some.injEq, DC.send13] at hs
          split at hs <;> simp only [Prod.mk.injEq] at hs <;> obtain ⟨rfl, _⟩ := hs <;>
            exact ⟨by simp [DC.forwarded, DC.msgs], fun _ => by simp [ticks, DC.rank, hp]; omega⟩
        · split at hs
          · simp only [Option.some.injEq, Prod.mk.injEq] at hs
            obtain ⟨rfl, _⟩ := hs
            exact ⟨Nat.le_refl _, fun _ => by simp [ticks, DC.rank]⟩
          · simp only [Option.some.injEq, Prod.mk.injEq] at hs
            obtain ⟨rfl, _⟩ := hs
            refine ⟨?_, fun _ => by simp [ticks, DC.rank, DC.refuse, DC.drain]⟩
            rw [DC.refuse, drain_forwarded _ (by decide)]
            simp [DC.forwarded, DC.msgs]
          · simp only [Option.some.injEq, Prod.mk.injEq] at hs
            obtain ⟨rfl, _⟩ := hs
            simp only [Hub.sendRequest]
            split
            · exact ⟨by simp [DC.forwarded, DC.msgs, ho], fun _ => by simp [ticks, DC.rank, hp, Hub.rank]⟩
            · exact ⟨by simp [DC.forwarded, DC.msgs, ho], fun _ => by simp [ticks, DC.rank, hp, Hub.rank]⟩
      · cases hs
    | two =>
      simp only [hp] at hs
      split at hs
      · rename_i ht
        simp only [Option.some.injEq, Prod.mk.injEq] at hs
        obtain ⟨rfl, _⟩ := hs
        obtain ⟨h1, h2⟩ := recv_rank p h.limited ht
        rw [after_forwarded _ _ (by decide)]
        simp only [DC.forwarded, DC.msgs, List.filter_append, List.length_append]
        refine ⟨by omega, fun heq => ?_⟩
        obtain ⟨a1, a2⟩ := after_phase { d with phase := .two, h := (d.h.recv p).1 } d.h 5
        simp only [DC.rank, a1, a2, hp, ticks]
        exact h2 (by omega)
      · cases hs
    | one n =>
      simp only [hp, Option.some.injEq, Prod.mk.injEq] at hs
      obtain ⟨rfl, _⟩ := hs
      cases hf : d.flight with
      | none =>
        refine ⟨by simp [DC.forward13, hf, DC.forwarded, DC.msgs], fun _ => ?_⟩
        cases n with
        | none => simp [ticks, DC.rank, hp]
        | some k => exact absurd hf (h.attempts k hp).2
      | some f =>
        refine ⟨by simp [DC.forward13, hf, DC.forwarded, DC.msgs], fun heq => ?_⟩
        simp [DC.forward13, hf, DC.forwarded, DC.msgs] at heq
    | idle => simp [hp] at hs
    | ended => simp [hp] at hs
    | failed q => simp [hp] at hs
  | timeout =>
    simp only [DC.step, hg, Bool.false_eq_true, if_false, DC.timeout] at hs
    cases hp : d.phase with
    | asking v l pkt pid =>
      have hl := h.left v l pkt pid hp
      simp only [hp] at hs
      split at hs
      · simp only [Option.some.injEq, Prod.mk.injEq] at hs
        obtain ⟨rfl, _⟩ := hs
        refine ⟨?_, fun _ => by simp [ticks, DC.rank, DC.refuse, DC.drain, hp]; omega⟩
        rw [DC.refuse, drain_forwarded _ (by decide)]
        simp [DC.forwarded, DC.msgs]
      · simp only [Option.some.injEq, Prod.mk.injEq] at hs
        obtain ⟨rfl, _⟩ := hs
        exact ⟨Nat.le_refl _, fun _ => by simp [ticks, DC.rank, hp]; omega⟩
    | two =>
      simp only [hp] at hs
      split at hs
      · cases hs
      · rename_i hne
        split at hs
        · cases hs
        · simp only [Option.some.injEq, Prod.mk.injEq] at hs
          obtain ⟨rfl, _⟩ := hs
          obtain ⟨h1, h2⟩ := timeout_rank h.limited hne
          rw [after_forwarded _ _ (errCode_ne _)]
          simp only [DC.forwarded, DC.msgs, List.filter_append, List.length_append]
          refine ⟨by omega, fun heq => ?_⟩
          simp only [DC.rank, (after_phase _ _ _).1, (after_phase _ _ _).2, hp, ticks]
          exact h2 (by omega)
    | one n =>
      simp only [hp] at hs
      cases hf : d.flight with
      | none =>
        simp only [hf] at hs
        split at hs
        · simp only [Option.some.injEq, Prod.mk.injEq] at hs
          obtain ⟨rfl, _⟩ := hs
          refine ⟨Nat.le_refl _, fun _ => ?_⟩
          cases n with
          | none => simp [ticks, DC.rank, hp]
          | some k => exact absurd hf (h.attempts k hp).2
        · cases hs
      | some f =>
        simp only [hf] at hs
        cases n with
        | none =>
          simp only [Option.some.injEq, Prod.mk.injEq] at hs
          obtain ⟨rfl, _⟩ := hs
          exact ⟨Nat.le_refl _, fun _ => by simp [ticks, DC.rank, hp]⟩
        | some k =>
          have hk := (h.attempts k hp).1
          simp only at hs
          split at hs
          · simp only [Option.some.injEq, Prod.mk.injEq] at hs
            obtain ⟨rfl, _⟩ := hs
            rw [drain_forwarded _ (by decide)]
            exact ⟨by simp [DC.forwarded, DC.msgs], fun _ => by simp [ticks, DC.rank, hp, DC.drain]; omega⟩
          · simp only [Option.some.injEq, Prod.mk.injEq] at hs
            obtain ⟨rfl, _⟩ := hs
            exact ⟨Nat.le_refl _, fun _ => by simp [ticks, DC.rank, hp]; omega⟩
    | idle => simp [hp] at hs
    | ended => simp [hp] at hs
    | failed q => simp [hp] at hs

theorem ticks_cons (e : DEv) (es : List DEv) : ticks (e :: es) = ticks [e] + ticks es := by
  cases e <;> simp [ticks]; omega

theorem run_ticks {absMax : Nat} (es : List DEv) : ∀ (d d' : DC) (out : List Bytes), Ok d → d.run absMax es = some (d', out) →
    d.forwarded ≤ d'.forwarded ∧ (d'.forwarded = d.forwarded → d'.rank + ticks es ≤ d.rank) := by
  induction es with
  | nil =>
    intro d d' out h hr
    simp only [DC.run, Option.some.injEq, Prod.mk.injEq] at hr
    obtain ⟨rfl, _⟩ := hr
    exact ⟨Nat.le_refl _, fun _ => by simp [ticks]⟩
  | cons e es ih =>
    intro d d' out h hr
    simp only [DC.run] at hr
    cases hs : d.step absMax e with
    | none => simp [hs] at hr
    | some d1 =>
      obtain ⟨d1, out1⟩ := d1
      simp only [hs, Option.map_eq_some_iff] at hr
      obtain ⟨⟨d2, out2⟩, hr', heq⟩ := hr
      simp only [Prod.mk.injEq] at heq
      obtain ⟨rfl, _⟩ := heq
      have hstep : Ok d1 ∧ d.forwarded ≤ d1.forwarded ∧ (d1.forwarded = d.forwarded → d1.rank + ticks [e] ≤ d.rank) := by
        cases hg : d.gone with
        | false => exact ⟨(step_tally h hg hs).1, step_ticks h hg hs⟩
        | true =>
          have he := gone_step hg hs
          simp only [Prod.mk.injEq] at he
          obtain ⟨rfl, _⟩ := he
          refine ⟨h, Nat.le_refl _, fun _ => ?_⟩
          cases e <;> simp [ticks, DC.step, hg] at hs ⊢
      obtain ⟨h1, h2, h3⟩ := hstep
      obtain ⟨k2, k3⟩ := ih d1 d2 out2 h1 hr'
      refine ⟨by omega, fun heq => ?_⟩
      have := h3 (by omega)
      have := k3 (by omega)
      rw [ticks_cons]
      omega

/-- **C55, the end comes.** Time runs out at most 36 times in a row without a reply being forwarded: then there is no process any more. -/
theorem C55_gives_up {absMax : Nat} {es es' : List DEv} {d d' : DC} {out out' : List Bytes}
    (hr : DC.init.run absMax es = some (d, out)) (hr' : d.run absMax es' = some (d', out')) (hno : d'.forwarded = d.forwarded) :
    ticks es' ≤ 36 := by
  obtain ⟨hok, _⟩ := run_tally es _ _ _ Ok.init hr
  have := (run_ticks es' d d' out' hok hr').2 hno
  have : d.rank ≤ 36 := by
    have hl := hok.limited
    unfold DC.rank
    split
    · exact Nat.le_refl _
    · rename_i v l p i hp
      have := hok.left v l p i hp
      omega
    · cases hm : d.h.mode with
      | normal => simp [Hub.rank]
      | status n left => rw [hm] at hl; obtain ⟨a, b, c⟩ := hl; simp only [Hub.rank]; omega
      | resent n l => simp only [Hub.rank]; omega
      | stopped => simp [Hub.rank]
      | crashed => simp [Hub.rank]
    · decide
    · omega
    · omega
  omega

/-! ### Errors -/

/-- A packet that looks like a status reply and is not one: 64 bytes, not a status request, and the fourth word is not `0x20____f0`. -/
def BadStatus (p : Bytes) : Prop :=
  p.length = 64 ∧ p ≠ [0x20, 0, 0, 0xf1] ++ List.replicate 60 0 ∧ ¬ (p[12]? = some 0x20 ∧ p[15]? = some 0xf0)

theorem parseStatus_crash {p : Bytes} (h : parseStatus p = .crash) : BadStatus p := by
  unfold parseStatus at h
  by_cases hl : p.length = 64
  · rw [if_neg (by simp [hl])] at h
    by_cases he : p = statusReq
    · rw [if_pos he] at h; cases h
    · rw [if_neg he] at h
      refine ⟨hl, he, ?_⟩
      rintro ⟨h12, h15⟩
      split at h
      · rename_i a b c d r hdrop
        have g12 : (p.drop 12)[0]? = p[12]? := by rw [List.getElem?_drop]
        have g15 : (p.drop 12)[3]? = p[15]? := by rw [List.getElem?_drop]
        rw [hdrop, h12] at g12
        rw [hdrop, h15] at g15
        simp at g12 g15
        rw [if_pos ⟨g12, g15⟩] at h
        cases h
      · rename_i hno
        have hlen : (p.drop 12).length = 52 := by simp [hl]
        match hq : p.drop 12 with
        | [] => simp [hq] at hlen
        | [_] => simp [hq] at hlen
        | [_, _] => simp [hq] at hlen
        | [_, _, _] => simp [hq] at hlen
        | a :: b :: c :: d :: r => exact hno a b c d r hq
  · rw [if_pos hl] at h; cases h

/-- Recovery is under way only if there is something in flight, or nothing ever may be. -/
def Busy (d : DC) : Prop :=
  d.phase = .two → d.h.mode ≠ .normal → d.h.mode ≠ .stopped → d.h.mode ≠ .crashed → d.h.q ≠ [] ∨ d.h.maxFl = 0

theorem forward_mode {h : Hub} (p : Bytes) (hm : h.mode = .normal) : (h.forward p).mode = .normal ∨
    ((h.forward p).mode = .crashed ∧ p.length < 4) := by
  unfold Hub.forward
  split
  · exact .inl hm
  · split
    · rename_i hl; exact .inr ⟨rfl, hl⟩
    · split <;> exact .inl hm

theorem recv_mode {h : Hub} (p : Bytes) (hc : h.mode ≠ .crashed)
    (hb : h.mode ≠ .normal → h.mode ≠ .stopped → h.mode ≠ .crashed → h.q ≠ [] ∨ h.maxFl = 0) :
    ((h.recv p).1.mode = .crashed → p.length < 4 ∨ BadStatus p ∨ p.take 4 = [0xfc, 0, 0, 0x10] ∨ h.maxFl = 0) ∧
    ((h.recv p).1.mode ≠ .normal → (h.recv p).1.mode ≠ .stopped → (h.recv p).1.mode ≠ .crashed →
      (h.recv p).1.q ≠ [] ∨ (h.recv p).1.maxFl = 0) := by
  cases hm : h.mode with
  | normal =>
    simp only [Hub.recv, hm]
    rcases forward_mode p hm with h1 | ⟨h1, h2⟩
    · exact ⟨fun he => (by rw [h1] at he; cases he), fun hn => absurd h1 hn⟩
    · exact ⟨fun _ => .inl h2, fun _ _ hn => absurd h1 hn⟩
  | status n l =>
    have hb' := hb (by simp [hm]) (by simp [hm]) hc
    simp only [Hub.recv, hm]
    split
    · rename_i h13
      exact ⟨fun _ => .inr (.inr (.inl h13)), fun _ _ hn => absurd rfl hn⟩
    · split
      · rename_i hcr
        exact ⟨fun _ => .inr (.inl (parseStatus_crash hcr)), fun _ _ hn => absurd rfl hn⟩
      · exact ⟨fun he => by simp [Hub.giveUp] at he, fun _ hn => by simp [Hub.giveUp] at hn⟩
      · split
        · rename_i hq
          exact ⟨fun _ => .inr (.inr (.inr (hb'.resolve_left (fun hne => hne hq)))), fun _ _ hn => absurd rfl hn⟩
        · rename_i hq
          split
          · exact ⟨fun he => by simp at he, fun _ _ _ => .inl hq⟩
          · exact ⟨fun he => by simp at he, fun _ _ _ => .inl hq⟩
  | resent n l =>
    simp only [Hub.recv, hm]
    rcases forward_mode (h := { h with mode := .normal }) p rfl with h1 | ⟨h1, h2⟩
    · exact ⟨fun he => (by rw [h1] at he; cases he), fun hn => absurd h1 hn⟩
    · exact ⟨fun _ => .inl h2, fun _ _ hn => absurd h1 hn⟩
  | stopped => simp only [Hub.recv, hm]; exact ⟨fun he => by simp at he, fun _ hn => absurd rfl hn⟩
  | crashed => exact absurd hm hc

theorem timeout_mode {h : Hub} (hn : h.nr = h.q.length) (hc : h.mode ≠ .crashed)
    (hb : h.mode ≠ .normal → h.mode ≠ .stopped → h.mode ≠ .crashed → h.q ≠ [] ∨ h.maxFl = 0) :
    h.timeout.1.mode ≠ .crashed ∧
    (h.timeout.1.mode ≠ .normal → h.timeout.1.mode ≠ .stopped → h.timeout.1.mode ≠ .crashed → h.timeout.1.q ≠ [] ∨ h.timeout.1.maxFl = 0) := by
  cases hm : h.mode with
  | normal =>
    simp only [Hub.timeout, hm]
    split
    · rename_i hz
      refine ⟨by simp, fun _ _ _ => ?_⟩
      rcases hz with hz | hz
      · left; intro hq; simp only [] at hq; rw [hn, hq] at hz; exact hz rfl
      · exact .inr hz
    · exact ⟨by simp, fun _ hn => absurd rfl hn⟩
  | status n l =>
    have hb' := hb (by simp [hm]) (by simp [hm]) hc
    simp only [Hub.timeout, hm]
    split
    · exact ⟨by simp [Hub.giveUp], fun _ hn => absurd rfl hn⟩
    · exact ⟨by simp, fun _ _ _ => hb'⟩
  | resent n l =>
    have hb' := hb (by simp [hm]) (by simp [hm]) hc
    simp only [Hub.timeout, hm]
    split
    · exact ⟨by simp [Hub.giveUp], fun _ hn => absurd rfl hn⟩
    · exact ⟨by simp, fun _ _ _ => hb'⟩
  | stopped => simp only [Hub.timeout, hm]; exact ⟨by simp, fun _ hn => absurd rfl hn⟩
  | crashed => exact absurd hm hc

/-- The header of the first transaction of an IPbus 1.3 packet is a byte-order request (type `0x1f`, one bit of direction, no error), in one
of the two byte orders. -/
def is13 : Bytes → Bool
  | a :: b :: c :: d :: _ => (a / 16 == 1 && c == 0 && d / 8 == 0x1f && d % 4 == 0) || (a / 8 == 0x1f && a % 4 == 0 && b == 0 && d / 16 == 1)
  | _ => false

/-- The packets of both protocol versions: control packets, and of IPbus 2.0 the status request, the resend request and the status reply. -/
def Packet (p : Bytes) : Prop :=
  isControl p = true ∨ is13 p = true ∨ p = statusReq ∨ (∃ b c, p = [0x20, b, c, 0xf2]) ∨
    ∃ x r : Bytes, ∃ b c, x.length = 8 ∧ p = [0x20, 0, 0, 0xf1] ++ x ++ [0x20, b, c, 0xf0] ++ r ∧ p.length = 64

/-- What the process is doing when it fails. -/
def Cause (d : DC) : DEv → Prop
  | .take => d.phase = .idle ∧ ∃ pkt pid r, d.inbox = (pkt, pid) :: r ∧ ¬ Packet pkt
  | .udp p => p.length < 4 ∨ BadStatus p ∨ p.take 4 = [0xfc, 0, 0, 0x10] ∨ (d.phase = .two ∧ d.h.maxFl = 0)
  | _ => False

/-- A control packet of IPbus 2.0 is recognised as one, as the first request … -/
theorem firstVersion_two {p : Bytes} (h : isControl p = true) : firstVersion p = some false := by
  unfold isControl at h
  split at h
  · rename_i a b c d r
    simp only [Bool.or_eq_true, Bool.and_eq_true, beq_iff_eq] at h
    rcases h with ⟨rfl, rfl⟩ | ⟨rfl, rfl⟩ <;> simp [firstVersion]
  · cases h

/-- … and so is one of IPbus 1.3. -/
theorem firstVersion_one {p : Bytes} {en : Endness} (h : parseControl p = .v1 en) : firstVersion p = some true := by
  unfold parseControl at h
  split at h
  · rename_i a b c d r
    simp only [firstVersion]
    repeat' split at h
    all_goals first | (exfalso; cases h; done) | skip
    · rename_i h1
      rw [if_neg (by omega), if_neg (by omega), if_pos h1]
    · rename_i h0 h1
      rw [if_neg (by omega), if_neg (by omega), if_neg h0, if_pos h1]
  · cases h

theorem is13_v1 {p : Bytes} (h : is13 p = true) : firstVersion p = some true := by
  unfold is13 at h
  split at h
  · rename_i a b c d r
    simp only [Bool.or_eq_true, Bool.and_eq_true, beq_iff_eq] at h
    simp only [firstVersion]
    rcases h with h | h
    · rw [if_neg (by omega), if_neg (by omega), if_pos (by omega)]
    · rw [if_neg (by omega), if_neg (by omega)]
      split
      · rfl
      · rw [if_pos (by omega)]
  · cases h

/-- **C55, the first request.** The target is asked in the language of the first request. -/
theorem C55_version (p : Bytes) : (isControl p = true → firstVersion p = some false) ∧ (is13 p = true → firstVersion p = some true) ∧
    firstVersion statusReq = some false ∧ (∀ v1, askDgrams v1 5 = [if v1 then statusReq13 else statusReq]) :=
  ⟨firstVersion_two, is13_v1, by decide, fun v1 => by cases v1 <;> rfl⟩

/-- Every packet is recognised as the first request. -/
theorem Packet.known {p : Bytes} (h : Packet p) : firstVersion p ≠ none := by
  rcases h with h | h | rfl | ⟨b, c, rfl⟩ | ⟨x, r, b, c, hx, rfl, hl⟩
  · rw [firstVersion_two h]; simp
  · rw [is13_v1 h]; simp
  · decide
  · simp [firstVersion]
  · match x, hx with
    | [a1, a2, a3, a4, a5, a6, a7, a8], _ =>
      simp only [List.cons_append, List.nil_append, List.append_assoc] at hl
      simp only [firstVersion, List.cons_append, List.nil_append, List.append_assoc]
      simp only [List.drop_succ_cons, List.drop_zero]
      simp [hl]


theorem step_cause {absMax : Nat} {d d' : DC} {out : List Bytes} {e : DEv} (h : Ok d) (hb : Busy d) (hg : d.gone = false)
    (hs : d.step absMax e = some (d', out)) : Busy d' ∧ (d'.broken → Cause d e) := by
  have hnb : ¬ d.broken := fun hx => by rw [(gone_iff d).mpr (.inr hx)] at hg; cases hg
  have hncr : d.phase = .two → d.h.mode ≠ .crashed := fun hp hm => hnb (.inr ⟨hp, hm⟩)
  have idleBusy : ∀ x : DC, x.phase ≠ .two → Busy x := fun x hx hp => absurd hp hx
  cases e with
  | cast pkt pid =>
    simp only [DC.step, hg, Bool.false_eq_true, if_false, Option.some.injEq, Prod.mk.injEq] at hs
    obtain ⟨rfl, _⟩ := hs
    exact ⟨hb, fun hx => absurd hx hnb⟩
  | take =>
    simp only [DC.step, hg, Bool.false_eq_true, if_false, DC.take] at hs
    cases hi : d.inbox with
    | nil => simp [hi] at hs
    | cons y r =>
      simp only [hi] at hs
      cases hp : d.phase with
      | idle =>
        simp only [hp] at hs
        split at hs
        · simp only [Option.some.injEq, Prod.mk.injEq] at hs
          obtain ⟨rfl, _⟩ := hs
          exact ⟨idleBusy _ (by simp), fun hx => by simp [DC.broken] at hx⟩
        · rename_i hv
          simp only [Option.some.injEq, Prod.mk.injEq] at hs
          obtain ⟨rfl, _⟩ := hs
          exact ⟨idleBusy _ (by simp), fun _ => ⟨hp, y.1, y.2, r, hi, fun hk => hk.known hv⟩⟩
      | two =>
        simp only [hp] at hs
        split at hs
        · rename_i hc
          simp only [Option.some.injEq, Prod.mk.injEq] at hs
          obtain ⟨rfl, _⟩ := hs
          have hmode : (d.h.sendRequest y.1 y.2).1.mode = .normal := by
            unfold Hub.sendRequest; split <;> exact hc.1
          exact ⟨fun _ hn => absurd hmode hn, fun hx => by simp [DC.broken, hmode] at hx⟩
        · cases hs
      | one n =>
        cases n with
        | none =>
          simp only [hp] at hs
          split at hs
          · simp only [Option.some.injEq, DC.send13] at hs
            split at hs <;> simp only [Prod.mk.injEq] at hs <;> obtain ⟨rfl, _⟩ := hs <;>
              exact ⟨idleBusy _ (by simp), fun hx => by simp [DC.broken] at hx⟩
          · cases hs
        | some k => simp [hp] at hs
      | asking v l p i => simp [hp] at hs
      | ended => simp [hp] at hs
      | failed p => simp [hp] at hs
  | udp p =>
    simp only [DC.step, hg, Bool.false_eq_true, if_false, DC.udp] at hs
    cases hp : d.phase with
    | asking v l pkt pid =>
      simp only [hp] at hs
      split at hs
      · split at hs
        · simp only [Option.some.injEq, DC.send13] at hs
          split at hs <;> simp only [Prod.mk.injEq] at hs <;> obtain ⟨rfl, _⟩ := hs <;>
            exact ⟨idleBusy _ (by simp), fun hx => by simp [DC.broken] at hx⟩
        · split at hs
          · rename_i hcr
            simp only [Option.some.injEq, Prod.mk.injEq] at hs
            obtain ⟨rfl, _⟩ := hs
            exact ⟨idleBusy _ (by simp), fun _ => .inr (.inl (parseStatus_crash hcr))⟩
          · simp only [Option.some.injEq, Prod.mk.injEq] at hs
            obtain ⟨rfl, _⟩ := hs
            exact ⟨idleBusy _ (by simp [DC.refuse, DC.drain]), fun hx => by simp [DC.broken, DC.refuse, DC.drain] at hx⟩
          · rename_i id _
            simp only [Option.some.injEq, Prod.mk.injEq] at hs
            obtain ⟨rfl, _⟩ := hs
            have hmode : ((⟨.normal, id, 0, [], min (nBuffers p) absMax, []⟩ : Hub).sendRequest pkt pid).1.mode = .normal := by
              unfold Hub.sendRequest; split <;> rfl
            exact ⟨fun _ hn => absurd hmode hn, fun hx => by simp [DC.broken, hmode] at hx⟩
      · cases hs
    | two =>
      simp only [hp] at hs
      split at hs
      · simp only [Option.some.injEq, Prod.mk.injEq] at hs
        obtain ⟨rfl, _⟩ := hs
        obtain ⟨h1, h2⟩ := recv_mode p (hncr hp) (hb hp)
        obtain ⟨a1, a2⟩ := after_phase { d with phase := .two, h := (d.h.recv p).1 } d.h 5
        refine ⟨fun _ => by rw [a2]; exact h2, ?_⟩
        rintro (⟨pid, hx⟩ | ⟨_, hx⟩)
        · rw [a1] at hx; cases hx
        · rw [a2] at hx
          rcases h1 hx with k | k | k | k
          · exact .inl k
          · exact .inr (.inl k)
          · exact .inr (.inr (.inl k))
          · exact .inr (.inr (.inr ⟨hp, k⟩))
      · cases hs
    | one n =>
      simp only [hp, Option.some.injEq, Prod.mk.injEq] at hs
      obtain ⟨rfl, _⟩ := hs
      exact ⟨idleBusy _ (by simp), fun hx => by simp [DC.broken] at hx⟩
    | idle => simp [hp] at hs
    | ended => simp [hp] at hs
    | failed q => simp [hp] at hs
  | timeout =>
    simp only [DC.step, hg, Bool.false_eq_true, if_false, DC.timeout] at hs
    cases hp : d.phase with
    | asking v l pkt pid =>
      simp only [hp] at hs
      split at hs <;> simp only [Option.some.injEq, Prod.mk.injEq] at hs <;> obtain ⟨rfl, _⟩ := hs <;>
        exact ⟨idleBusy _ (by simp [DC.refuse, DC.drain]), fun hx => by simp [DC.broken, DC.refuse, DC.drain] at hx⟩
    | two =>
      simp only [hp] at hs
      split at hs
      · cases hs
      · split at hs
        · cases hs
        · simp only [Option.some.injEq, Prod.mk.injEq] at hs
          obtain ⟨rfl, _⟩ := hs
          obtain ⟨h1, h2⟩ := timeout_mode h.nr (hncr hp) (hb hp)
          refine ⟨fun _ => by rw [(after_phase _ _ _).2]; exact h2, ?_⟩
          rintro (⟨pid, hx⟩ | ⟨_, hx⟩)
          · rw [(after_phase _ _ _).1] at hx; cases hx
          · rw [(after_phase _ _ _).2] at hx; exact absurd hx h1
    | one n =>
      simp only [hp] at hs
      cases hf : d.flight with
      | none =>
        simp only [hf] at hs
        split at hs
        · simp only [Option.some.injEq, Prod.mk.injEq] at hs
          obtain ⟨rfl, _⟩ := hs
          exact ⟨idleBusy _ (by simp), fun hx => by simp [DC.broken] at hx⟩
        · cases hs
      | some f =>
        simp only [hf] at hs
        cases n with
        | none =>
          simp only [Option.some.injEq, Prod.mk.injEq] at hs
          obtain ⟨rfl, _⟩ := hs
          exact ⟨idleBusy _ (by simp), fun hx => by simp [DC.broken] at hx⟩
        | some k =>
          simp only at hs
          split at hs <;> simp only [Option.some.injEq, Prod.mk.injEq] at hs <;> obtain ⟨rfl, _⟩ := hs <;>
            exact ⟨idleBusy _ (by simp [DC.drain]), fun hx => by simp [DC.broken, DC.drain] at hx⟩
    | idle => simp [hp] at hs
    | ended => simp [hp] at hs
    | failed q => simp [hp] at hs

theorem run_busy {absMax : Nat} (es : List DEv) : ∀ (d d' : DC) (out : List Bytes), Ok d → Busy d → d.run absMax es = some (d', out) →
    Busy d' := by
  induction es with
  | nil =>
    intro d d' out _ hb hr
    simp only [DC.run, Option.some.injEq, Prod.mk.injEq] at hr
    obtain ⟨rfl, _⟩ := hr
    exact hb
  | cons e es ih =>
    intro d d' out h hb hr
    simp only [DC.run] at hr
    cases hs : d.step absMax e with
    | none => simp [hs] at hr
    | some d1 =>
      obtain ⟨d1, out1⟩ := d1
      simp only [hs, Option.map_eq_some_iff] at hr
      obtain ⟨⟨d2, out2⟩, hr', heq⟩ := hr
      simp only [Prod.mk.injEq] at heq
      obtain ⟨rfl, _⟩ := heq
      cases hg : d.gone with
      | true =>
        have he := gone_step hg hs
        simp only [Prod.mk.injEq] at he
        obtain ⟨rfl, _⟩ := he
        exact ih d1 d2 out2 h hb hr'
      | false => exact ih d1 d2 out2 (step_tally h hg hs).1 (step_cause h hb hg hs).1 hr'

/-- **C55, errors.** The process fails only when the first request is not an IPbus packet, or when it takes a UDP packet that is shorter
than four bytes, that looks like a status reply but is not one, or that is a reply of an IPbus 1.3 target during recovery; or after it has been
told that the target has no buffers (or is configured with none). -/
theorem C55_errors {absMax : Nat} {es : List DEv} {d d' : DC} {out out' : List Bytes} {e : DEv}
    (hr : DC.init.run absMax es = some (d, out)) (hg : d.gone = false) (hs : d.step absMax e = some (d', out')) (hbr : d'.broken) :
    Cause d e :=
  (step_cause (run_tally es _ _ _ Ok.init hr).1 (run_busy es _ _ _ Ok.init (fun hp => by cases hp) hr) hg hs).2 hbr

/-! ## Cases, and failures -/

/-- A status reply: two buffers, next ID 1. -/
def someStatus : Bytes := [0x20, 0, 0, 0xf1, 0, 0, 0, 0, 0, 0, 0, 2, 0x20, 0, 1, 0xf0] ++ List.replicate 48 0

/-- A run: the first status request is lost; one reply arrives; then the target is not heard of again. -/
def lifeRun : List DEv :=
  [.cast [0x20, 0, 0, 0xf0, 10] 1, .take, .timeout, .cast [0xf0, 0, 0, 0x20, 20] 2, .udp someStatus, .take, .udp [0x20, 0, 1, 0xf0, 77],
   .cast [0x20, 0, 0, 0xf0, 30] 3, .take, .cast [0x20, 0, 0, 0xf0, 40] 4] ++ List.replicate 6 .timeout ++ [.cast [0x20, 0, 0, 0xf0, 50] 5]

/-- The hypotheses of `C55_one_answer` and `C55_ended_partial` hold for it: the first client has its reply, two are told that their packets
in flight failed, one that its request in the mailbox failed. -/
example : (DC.init.run 16 lifeRun).map (fun r => (r.1.msgs, r.1.phase, r.1.h.mode, heard 16 DC.init lifeRun)) =
    some ([⟨1, 0, [0x20, 0, 0, 0xf0, 77]⟩, ⟨2, 3, []⟩, ⟨3, 3, []⟩, ⟨4, 3, []⟩], .two, .stopped, [1, 2, 3, 4]) := by decide +kernel

/-- An IPbus 1.3 target: a reply, and a request that is not answered. -/
example : (DC.init.run 16 ([.cast [0xf8, 0, 0, 0x10] 1, .take, .udp [0xfc, 0, 0, 0x10], .udp [0xfc, 0, 0, 0x10, 9], .cast [0xf8, 0, 0, 0x10] 2, .take,
      .cast [0x20, 0, 0, 0xf0] 3] ++ List.replicate 4 .timeout)).map (fun r => (r.1.msgs, r.1.phase, r.2)) =
    some ([⟨1, 0, [0xfc, 0, 0, 0x10, 9]⟩, ⟨2, 1, []⟩, ⟨3, 1, []⟩], .ended, [statusReq13, [0xf8, 0, 0, 0x10], [0xf8, 0, 0, 0x10]]) := by
  decide +kernel

/-- Thirty timeouts without a reply (see `C55_gives_up`). -/
example : (DC.init.run 16 ([.cast [0x20, 0, 0, 0xf0] 1, .take] ++ List.replicate 4 .timeout ++ [.udp someStatus, .timeout] ++
      ((List.replicate 5 (List.replicate 4 .timeout ++ [.udp someStatus, .timeout])).flatten))).map (fun r => (r.1.msgs, r.1.h.mode)) =
    some ([⟨1, 1, []⟩], .stopped) := by decide +kernel

/-- **C55 fails at the first request.** A packet that is not IPbus makes the process fail: neither its client nor the client of the request
that is waiting hears of it. -/
theorem C55_violated_first : ∃ (es : List DEv) (d : DC),
    DC.init.run 16 es = some (d, []) ∧ heard 16 DC.init es = [1, 2] ∧ d.broken ∧ d.msgs = [] ∧ d.waiting = [1, 2] ∧
    ∀ es' r, d.run 16 es' = some r → r.1 = d :=
  ⟨[.cast [0x30, 0, 0, 0xf0] 1, .cast [0x20, 0, 0, 0xf0, 10] 2, .take], _, rfl, by decide, .inl ⟨1, rfl⟩, rfl, rfl,
    fun es' r h => by rw [(run_gone es' _ r rfl h).1]⟩

/-- **C55 fails at the end.** A request that is cast just after the process has decided to stop is lost. -/
theorem C55_violated_late : ∃ (es : List DEv) (d : DC) (out : List Bytes),
    DC.init.run 16 es = some (d, out) ∧ d.stopped ∧ (∀ pkt pid d' out', d.step 16 (.cast pkt pid) = some (d', out') → d' = d ∧ out' = []) :=
  ⟨[.cast [0x20, 0, 0, 0xf0, 10] 1, .take, .udp someStatus, .udp [0x20, 0, 1, 0xf0, 77], .timeout], _, _, rfl, .inr ⟨rfl, rfl⟩,
    fun pkt pid d' out' h => by have := gone_step rfl h; simp only [Prod.mk.injEq] at this; exact this⟩

/-- **C55 fails with a target without buffers.** After the first request has been answered, the process does not take any more requests;
when time runs out it asks for the status of the target, and fails when it comes. -/
theorem C55_violated_no_buffers : ∃ (es : List DEv) (d : DC) (out : List Bytes) (p : Bytes),
    DC.init.run 16 es = some (d, out) ∧ d.waiting = [2] ∧ d.step 16 .take = none ∧
    p = [0x20, 0, 0, 0xf1, 0, 0, 0, 0, 0, 0, 0, 0, 0x20, 0, 2, 0xf0] ++ List.replicate 48 0 ∧
    ∃ d' out', d.run 16 [.timeout, .udp p] = some (d', out') ∧ d'.broken ∧ d'.waiting = [2] :=
  ⟨[.cast [0x20, 0, 0, 0xf0, 10] 1, .take, .udp ([0x20, 0, 0, 0xf1, 0, 0, 0, 0, 0, 0, 0, 0, 0x20, 0, 1, 0xf0] ++ List.replicate 48 0),
    .udp [0x20, 0, 1, 0xf0, 77], .cast [0x20, 0, 0, 0xf0, 20] 2], _, _, _, rfl, rfl, rfl, rfl, _, _, rfl, .inr ⟨rfl, rfl⟩, rfl⟩

end Verif.Hub
