import Verif.Model.HubFirst
import Verif.Props.C42
/-!
# Lemmas about the whole life of a device client: who is waiting
-/

set_option autoImplicit false
set_option linter.unusedSimpArgs false

namespace Verif.Hub

/-- The clients whose requests have been taken from the mailbox and not been answered. -/
def DC.held (d : DC) : List Nat :=
  match d.phase with
  | .asking _ _ _ pid => [pid]
  | .failed pid => [pid]
  | .two => d.h.waiting
  | .one _ => (d.flight.map (·.1)).toList
  | _ => []

/-- The clients that are waiting for an answer. -/
def DC.waiting (d : DC) : List Nat := d.held ++ d.inbox.map (·.2)

/-- Answers plus waiting for client `x`. -/
def DC.tally (d : DC) (x : Nat) : Nat := (d.msgs.map (·.pid)).count x + d.waiting.count x

/-- The invariant of the process by itself. -/
structure Ok (d : DC) : Prop where
  nr : d.h.nr = d.h.q.length
  before : (∀ n, d.phase ≠ .one n) → d.flight = none
  first : d.phase ≠ .two → d.h.q = [] ∧ d.h.out = [] ∧ d.h.mode = .normal
  limited : Limited d.h.mode
  attempts : ∀ k, d.phase = .one (some k) → k ≤ 2 ∧ d.flight ≠ none
  left : ∀ v l p i, d.phase = .asking v l p i → 1 ≤ l ∧ l ≤ 5

theorem Ok.init : Ok DC.init :=
  ⟨rfl, fun _ => rfl, fun _ => ⟨rfl, rfl, rfl⟩, trivial, (by intro _ h; cases h), (by intro _ _ _ _ h; cases h)⟩

/-- What a step of the IPbus 2.0 loop does to the clients. -/
def Hub.tally (h : Hub) (x : Nat) : Nat := (h.out.map (·.pid)).count x + h.waiting.count x

theorem sendRequest_facts {h : Hub} (pkt : Bytes) (pid : Nat) (hn : h.nr = h.q.length) (hm : h.mode = .normal) :
    (h.sendRequest pkt pid).1.nr = (h.sendRequest pkt pid).1.q.length ∧ (h.sendRequest pkt pid).1.mode = .normal ∧
    ∀ x, (h.sendRequest pkt pid).1.tally x = h.tally x + [pid].count x := by
  unfold Hub.sendRequest
  split
  · refine ⟨by simp [hn], hm, fun x => ?_⟩
    simp [Hub.tally, Hub.waiting, hm, List.count_append, List.count_cons]
    omega
  · refine ⟨hn, hm, fun x => ?_⟩
    simp [Hub.tally, Hub.waiting, hm, List.count_append, List.count_cons]
    omega

theorem forward_tally {h : Hub} (p : Bytes) (hn : h.nr = h.q.length) (hm : h.mode = .normal) (x : Nat) :
    (h.forward p).tally x = h.tally x := by
  obtain ⟨_, h2, h3⟩ := forward_facts p hn hm
  have h3' := congrArg (List.count x) h3
  simp only [List.count_append, List.count_cons] at h3'
  simp only [Hub.tally, Hub.waiting, h2, hm, if_false, reduceCtorEq]
  exact h3'

theorem giveUp_tally {h : Hub} (code : Nat) (hm : h.mode ≠ .stopped) (x : Nat) : (h.giveUp code).tally x = h.tally x := by
  have : (List.map (·.pid) (h.q.map fun f => (⟨f.pid, code, []⟩ : Msg))) = h.q.map (·.pid) := by
    simp [Function.comp_def]
  simp [Hub.giveUp, Hub.tally, Hub.waiting, hm, List.count_append, List.count_cons, Function.comp_def]

theorem forward_limited {h : Hub} (p : Bytes) (hl : Limited h.mode) : Limited (h.forward p).mode := by
  unfold Hub.forward
  split
  · exact hl
  · split
    · trivial
    · split <;> exact hl

theorem recv_facts {h : Hub} (p : Bytes) (hn : h.nr = h.q.length) (hl : Limited h.mode) :
    (h.recv p).1.nr = (h.recv p).1.q.length ∧ Limited (h.recv p).1.mode ∧ ∀ x, (h.recv p).1.tally x = h.tally x := by
  cases hm : h.mode with
  | normal =>
    simp only [Hub.recv, hm]
    exact ⟨(forward_facts p hn hm).1, forward_limited p hl, forward_tally p hn hm⟩
  | status n l =>
    rw [hm] at hl
    simp only [Hub.recv, hm]
    split
    · exact ⟨hn, trivial, fun x => by simp [Hub.tally, Hub.waiting, hm]⟩
    · split
      · exact ⟨hn, trivial, fun x => by simp [Hub.tally, Hub.waiting, hm]⟩
      · exact ⟨hn, trivial, giveUp_tally 5 (by simp [hm])⟩
      · split
        · exact ⟨hn, trivial, fun x => by simp [Hub.tally, Hub.waiting, hm]⟩
        · split
          · exact ⟨hn, hl.1, fun x => by simp [Hub.tally, Hub.waiting, hm]⟩
          · exact ⟨hn, hl.1, fun x => by simp [Hub.tally, Hub.waiting, hm]⟩
  | resent n l =>
    simp only [Hub.recv, hm]
    refine ⟨(forward_facts (h := { h with mode := .normal }) p hn rfl).1, forward_limited _ trivial, fun x => ?_⟩
    rw [forward_tally (h := { h with mode := .normal }) p hn rfl]
    simp [Hub.tally, Hub.waiting, hm]
  | stopped => simp only [Hub.recv, hm]; exact ⟨hn, trivial, fun _ => by trivial⟩
  | crashed => simp only [Hub.recv, hm]; exact ⟨hn, trivial, fun _ => by trivial⟩

theorem timeout_facts {h : Hub} (hn : h.nr = h.q.length) (hl : Limited h.mode) :
    h.timeout.1.nr = h.timeout.1.q.length ∧ Limited h.timeout.1.mode ∧ ∀ x, h.timeout.1.tally x = h.tally x := by
  cases hm : h.mode with
  | normal =>
    simp only [Hub.timeout, hm]
    split
    · exact ⟨hn, ⟨by omega, by omega, by omega⟩, fun x => by simp [Hub.tally, Hub.waiting, hm]⟩
    · rename_i hc
      have hq : h.q = [] := by
        rw [hn] at hc
        cases hq : h.q with
        | nil => rfl
        | cons => simp [hq] at hc
      exact ⟨hn, trivial, fun x => by simp [Hub.tally, Hub.waiting, hm, hq]⟩
  | status n l =>
    rw [hm] at hl
    obtain ⟨h1, h2, h3⟩ := hl
    simp only [Hub.timeout, hm]
    split
    · exact ⟨hn, trivial, giveUp_tally 3 (by simp [hm])⟩
    · exact ⟨hn, ⟨h1, by omega, by omega⟩, fun x => by simp [Hub.tally, Hub.waiting, hm]⟩
  | resent n l =>
    rw [hm] at hl
    have hl' : n ≤ 4 := hl
    simp only [Hub.timeout, hm]
    split
    · exact ⟨hn, trivial, giveUp_tally _ (by simp [hm])⟩
    · exact ⟨hn, ⟨by omega, by omega, by omega⟩, fun x => by simp [Hub.tally, Hub.waiting, hm]⟩
  | stopped => simp only [Hub.timeout, hm]; exact ⟨hn, trivial, fun _ => by trivial⟩
  | crashed => simp only [Hub.timeout, hm]; exact ⟨hn, trivial, fun _ => by trivial⟩

/-! ## The process -/

theorem drain_tally (d : DC) (code x : Nat) : (d.drain code).tally x = d.tally x := by
  cases hp : d.phase <;>
    simp [DC.drain, DC.tally, DC.msgs, DC.waiting, DC.held, hp, List.count_append, List.count_cons, Function.comp_def] <;> omega

theorem drain_ok {d : DC} (h : Ok d) (code : Nat) : Ok (d.drain code) :=
  ⟨h.nr, h.before, h.first, h.limited, h.attempts, h.left⟩

theorem tally_two {d : DC} (hp : d.phase = .two) (x : Nat) :
    d.tally x = d.h.tally x + (d.rest.map (·.pid)).count x + (d.inbox.map (·.2)).count x := by
  simp only [DC.tally, DC.msgs, DC.waiting, DC.held, hp, Hub.tally, List.map_append, List.count_append, List.count_cons]
  omega

theorem after_tally (d : DC) (old : Hub) (code x : Nat) : (d.after old code).tally x = d.tally x := by
  unfold DC.after
  split
  · exact drain_tally _ _ _
  · rfl

theorem after_ok {d : DC} (h : Ok d) (old : Hub) (code : Nat) : Ok (d.after old code) := by
  unfold DC.after
  split
  · exact drain_ok h _
  · exact h

theorem Ok.two {d : DC} (h : Ok d) (hp : d.phase = .two) {h' : Hub} (hn : h'.nr = h'.q.length) (hl : Limited h'.mode)
    (inbox : List (Bytes × Nat)) : Ok { d with h := h', inbox := inbox } :=
  ⟨hn, fun hn => h.before hn, fun hne => absurd hp hne, hl, fun k hk => by simp [hp] at hk, fun _ _ _ _ hk => by simp [hp] at hk⟩

theorem send13_ok {d : DC} (h : Ok d) (hp : d.phase = .one none) (pkt : Bytes) (pid : Nat) : Ok (d.send13 pkt pid).1 := by
  unfold DC.send13
  split
  · exact ⟨h.nr, fun hn => absurd hp (hn none), h.first, h.limited, fun k hk => by simp [hp] at hk, fun _ _ _ _ hk => by simp [hp] at hk⟩
  · exact ⟨h.nr, h.before, h.first, h.limited, h.attempts, h.left⟩

theorem send13_tally {d : DC} (hp : d.phase = .one none) (hf : d.flight = none) (pkt : Bytes) (pid x : Nat) :
    (d.send13 pkt pid).1.tally x = d.tally x + [pid].count x := by
  unfold DC.send13
  split
  · simp [DC.tally, DC.msgs, DC.waiting, DC.held, hp, hf, List.count_append, List.count_cons]
    omega
  · simp [DC.tally, DC.msgs, DC.waiting, DC.held, hp, hf, List.count_append, List.count_cons]
    omega

theorem refuse_ok {d : DC} (h : Ok d) (hf : d.flight = none) (hq : d.phase ≠ .two) (pid code : Nat) : Ok (d.refuse pid code) :=
  drain_ok (d := { d with phase := .ended, rest := d.rest ++ [⟨pid, code, []⟩] })
    ⟨h.nr, fun _ => hf, fun _ => h.first hq, h.limited, (by intro k hk; cases hk), (by intro _ _ _ _ hk; cases hk)⟩ _

/-- The client of an event that reaches the process. -/
def DEv.pids : DEv → List Nat
  | .cast _ pid => [pid]
  | _ => []

theorem step_tally {absMax : Nat} {d d' : DC} {out : List Bytes} {e : DEv} (h : Ok d) (hg : d.gone = false)
    (hs : d.step absMax e = some (d', out)) : Ok d' ∧ ∀ x, d'.tally x = d.tally x + e.pids.count x := by
  cases e with
  | cast pkt pid =>
    simp only [DC.step, hg, Bool.false_eq_true, if_false, Option.some.injEq, Prod.mk.injEq] at hs
    obtain ⟨rfl, _⟩ := hs
    refine ⟨⟨h.nr, h.before, h.first, h.limited, h.attempts, h.left⟩, fun x => ?_⟩
    cases hp : d.phase <;>
      simp [DC.tally, DC.msgs, DC.waiting, DC.held, hp, DEv.pids, List.count_append, List.count_cons] <;> omega
  | take =>
    simp only [DC.step, hg, Bool.false_eq_true, if_false, DC.take] at hs
    cases hi : d.inbox with
    | nil => simp [hi] at hs
    | cons y r =>
      simp only [hi] at hs
      cases hp : d.phase with
      | idle =>
        have hf := h.before (by simp [hp])
        have hq := h.first (by simp [hp])
        simp only [hp] at hs
        cases hv : firstVersion y.1 with
        | none =>
          simp only [hv, Option.some.injEq, Prod.mk.injEq] at hs
          obtain ⟨rfl, _⟩ := hs
          refine ⟨⟨h.nr, fun _ => hf, fun _ => hq, h.limited, fun k hk => by simp at hk, fun _ _ _ _ hk => by simp at hk⟩, fun x => ?_⟩
          simp [DC.tally, DC.msgs, DC.waiting, DC.held, hp, hi, DEv.pids, List.count_append, List.count_cons]
        | some v =>
          simp only [hv, Option.some.injEq, Prod.mk.injEq] at hs
          obtain ⟨rfl, _⟩ := hs
          refine ⟨⟨h.nr, fun _ => hf, fun _ => hq, h.limited, fun k hk => by simp at hk, fun v l p i hk => by simp at hk; omega⟩,
            fun x => ?_⟩
          simp [DC.tally, DC.msgs, DC.waiting, DC.held, hp, hi, DEv.pids, List.count_append, List.count_cons]
      | two =>
        simp only [hp] at hs
        split at hs
        · rename_i hc
          simp only [Option.some.injEq, Prod.mk.injEq] at hs
          obtain ⟨rfl, _⟩ := hs
          obtain ⟨h1, h2, h3⟩ := sendRequest_facts y.1 y.2 h.nr hc.1
          refine ⟨hp ▸ h.two hp h1 (by rw [h2]; trivial) r, fun x => ?_⟩
          rw [tally_two rfl, tally_two hp]
          simp only [h3, hi, List.map_cons, List.count_cons, List.count_nil, DEv.pids]
          omega
        · cases hs
      | one n =>
        cases n with
        | none =>
          simp only [hp] at hs
          split at hs
          · rename_i hf
            simp only [Option.some.injEq] at hs
            have hd' := congrArg Prod.fst hs
            simp only at hd'
            have hok : Ok { d with phase := .one none, inbox := r } :=
              ⟨h.nr, fun _ => hf, fun _ => h.first (by simp [hp]), h.limited, fun k hk => by simp at hk, fun _ _ _ _ hk => by simp at hk⟩
            subst hd'
            refine ⟨send13_ok hok rfl _ _, fun x => ?_⟩
            rw [send13_tally (d := { d with phase := .one none, inbox := r }) rfl hf]
            simp [DC.tally, DC.msgs, DC.waiting, DC.held, hp, hi, hf, DEv.pids, List.count_append, List.count_cons]
            omega
          · cases hs
        | some k => simp [hp] at hs
      | asking v l p i => simp [hp] at hs
      | ended => simp [hp] at hs
      | failed p => simp [hp] at hs
  | udp p =>
    simp only [DC.step, hg, Bool.false_eq_true, if_false, DC.udp] at hs
    cases hp : d.phase with
    | asking v l pkt pid =>
      have hf := h.before (by simp [hp])
      obtain ⟨hq, ho, hm⟩ := h.first (by simp [hp])
      simp only [hp] at hs
      split at hs
      · split at hs
        · simp only [Option.some.injEq] at hs
          have hd' := congrArg Prod.fst hs
          simp only at hd'
          subst hd'
          have hok : Ok { d with phase := .one none } :=
            ⟨h.nr, fun _ => hf, fun _ => ⟨hq, ho, hm⟩, h.limited, fun k hk => by simp at hk, fun _ _ _ _ hk => by simp at hk⟩
          refine ⟨send13_ok hok rfl _ _, fun x => ?_⟩
          rw [send13_tally (d := { d with phase := .one none }) rfl hf]
          simp [DC.tally, DC.msgs, DC.waiting, DC.held, hp, hf, DEv.pids, List.count_append, List.count_cons]
          omega
        · split at hs
          · simp only [Option.some.injEq, Prod.mk.injEq] at hs
            obtain ⟨rfl, _⟩ := hs
            refine ⟨⟨h.nr, fun _ => hf, fun _ => ⟨hq, ho, hm⟩, h.limited, fun k hk => by simp at hk, fun _ _ _ _ hk => by simp at hk⟩,
              fun x => ?_⟩
            simp [DC.tally, DC.msgs, DC.waiting, DC.held, hp, DEv.pids, List.count_append, List.count_cons]
          · simp only [Option.some.injEq, Prod.mk.injEq] at hs
            obtain ⟨rfl, _⟩ := hs
            refine ⟨refuse_ok h hf (by simp [hp]) _ _, fun x => ?_⟩
            rw [DC.refuse, drain_tally]
            simp [DC.tally, DC.msgs, DC.waiting, DC.held, hp, DEv.pids, List.count_append, List.count_cons]
            omega
          · rename_i id _
            simp only [Option.some.injEq, Prod.mk.injEq] at hs
            obtain ⟨rfl, _⟩ := hs
            obtain ⟨h1, h2, h3⟩ := sendRequest_facts (h := ⟨.normal, id, 0, [], min (nBuffers p) absMax, []⟩) pkt pid rfl rfl
            refine ⟨⟨h1, fun _ => hf, fun hne => absurd rfl hne, by rw [h2]; trivial, fun k hk => by simp at hk,
              fun _ _ _ _ hk => by simp at hk⟩, fun x => ?_⟩
            rw [tally_two rfl]
            simp only [h3]
            simp [DC.tally, DC.msgs, DC.waiting, DC.held, hp, ho, DEv.pids, List.count_append, List.count_cons, Hub.tally, Hub.waiting]
            omega
      · cases hs
    | two =>
      simp only [hp] at hs
      split at hs
      · simp only [Option.some.injEq, Prod.mk.injEq] at hs
        obtain ⟨rfl, _⟩ := hs
        obtain ⟨h1, h2, h3⟩ := recv_facts p h.nr h.limited
        refine ⟨after_ok (hp ▸ h.two hp h1 h2 d.inbox) _ _, fun x => ?_⟩
        rw [after_tally, tally_two rfl, tally_two hp]
        simp only [h3, DEv.pids, List.count_nil]
        omega
      · cases hs
    | one n =>
      simp only [hp, Option.some.injEq, Prod.mk.injEq] at hs
      obtain ⟨rfl, _⟩ := hs
      refine ⟨⟨?_, fun hn => absurd rfl (hn none), fun _ => ?_, ?_, fun k hk => by simp at hk, fun _ _ _ _ hk => by simp at hk⟩,
        fun x => ?_⟩
      · unfold DC.forward13; split <;> exact h.nr
      · unfold DC.forward13; split <;> exact h.first (by simp [hp])
      · unfold DC.forward13; split <;> exact h.limited
      · unfold DC.forward13
        split
        · rename_i f hf
          simp [DC.tally, DC.msgs, DC.waiting, DC.held, hp, hf, DEv.pids, List.count_append, List.count_cons]
          omega
        · rename_i hf
          simp [DC.tally, DC.msgs, DC.waiting, DC.held, hp, hf, DEv.pids]
    | idle => simp [hp] at hs
    | ended => simp [hp] at hs
    | failed q => simp [hp] at hs
  | timeout =>
    simp only [DC.step, hg, Bool.false_eq_true, if_false, DC.timeout] at hs
    cases hp : d.phase with
    | asking v l pkt pid =>
      have hf := h.before (by simp [hp])
      have hq := h.first (by simp [hp])
      have hl := h.left v l pkt pid hp
      simp only [hp] at hs
      split at hs
      · simp only [Option.some.injEq, Prod.mk.injEq] at hs
        obtain ⟨rfl, _⟩ := hs
        refine ⟨refuse_ok h hf (by simp [hp]) _ _, fun x => ?_⟩
        rw [DC.refuse, drain_tally]
        simp [DC.tally, DC.msgs, DC.waiting, DC.held, hp, DEv.pids, List.count_append, List.count_cons]
        omega
      · simp only [Option.some.injEq, Prod.mk.injEq] at hs
        obtain ⟨rfl, _⟩ := hs
        refine ⟨⟨h.nr, fun _ => hf, fun _ => hq, h.limited, fun k hk => by simp at hk, fun v' l' p i hk => by simp at hk; omega⟩,
          fun x => ?_⟩
        simp [DC.tally, DC.msgs, DC.waiting, DC.held, hp, DEv.pids, List.count_append, List.count_cons]
    | two =>
      simp only [hp] at hs
      split at hs
      · cases hs
      · split at hs
        · cases hs
        · simp only [Option.some.injEq, Prod.mk.injEq] at hs
          obtain ⟨rfl, _⟩ := hs
          obtain ⟨h1, h2, h3⟩ := timeout_facts h.nr h.limited
          refine ⟨after_ok (hp ▸ h.two hp h1 h2 d.inbox) _ _, fun x => ?_⟩
          rw [after_tally, tally_two rfl, tally_two hp]
          simp only [h3, DEv.pids, List.count_nil]
          omega
    | one n =>
      simp only [hp] at hs
      cases hf : d.flight with
      | none =>
        simp only [hf] at hs
        split at hs
        · rename_i hi
          simp only [Option.some.injEq, Prod.mk.injEq] at hs
          obtain ⟨rfl, _⟩ := hs
          refine ⟨⟨h.nr, fun _ => rfl, fun _ => h.first (by simp [hp]), h.limited, fun k hk => by simp at hk,
            fun _ _ _ _ hk => by simp at hk⟩, fun x => ?_⟩
          simp [DC.tally, DC.msgs, DC.waiting, DC.held, hp, hf, hi, DEv.pids]
        · cases hs
      | some f =>
        simp only [hf] at hs
        cases n with
        | none =>
          simp only [Option.some.injEq, Prod.mk.injEq] at hs
          obtain ⟨rfl, _⟩ := hs
          refine ⟨⟨h.nr, fun hn => absurd rfl (hn _), fun _ => h.first (by simp [hp]), h.limited,
            fun k hk => by simp at hk; simp [hf]; omega, fun _ _ _ _ hk => by simp at hk⟩, fun x => ?_⟩
          simp [DC.tally, DC.msgs, DC.waiting, DC.held, hp, hf, DEv.pids]
        | some k =>
          have hk := (h.attempts k hp).1
          simp only at hs
          split at hs
          · simp only [Option.some.injEq, Prod.mk.injEq] at hs
            obtain ⟨rfl, _⟩ := hs
            refine ⟨drain_ok (d := { d with phase := .ended, flight := none, rest := d.rest ++ [⟨f.1, 1, []⟩] })
              ⟨h.nr, fun _ => rfl, fun _ => h.first (by simp [hp]), h.limited, (by intro k hk; cases hk),
              (by intro _ _ _ _ hk; cases hk)⟩ _, fun x => ?_⟩
            rw [drain_tally]
            simp [DC.tally, DC.msgs, DC.waiting, DC.held, hp, hf, DEv.pids, List.count_append, List.count_cons]
            omega
          · simp only [Option.some.injEq, Prod.mk.injEq] at hs
            obtain ⟨rfl, _⟩ := hs
            refine ⟨⟨h.nr, fun hn => absurd rfl (hn _), fun _ => h.first (by simp [hp]), h.limited,
              fun k hk => by simp at hk; simp [hf]; omega, fun _ _ _ _ hk => by simp at hk⟩, fun x => ?_⟩
            simp [DC.tally, DC.msgs, DC.waiting, DC.held, hp, hf, DEv.pids]
    | idle => simp [hp] at hs
    | ended => simp [hp] at hs
    | failed q => simp [hp] at hs

end Verif.Hub
