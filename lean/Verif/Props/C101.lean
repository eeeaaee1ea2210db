import Verif.Model.HubCtl

/-!
C101: the exit codes of the scripts of the ControlHub mean what is documented at the top of
controlhub/scripts/controlhub_start, _stop, _status, _stats and _info.
-/

set_option autoImplicit false

namespace Verif.Spec
open HubCtl

/-- The node can be reached. -/
def Reached (c : Contact) : Prop := c.connect = true ∧ c.pong = true

/-- controlhub_start: what the code says. -/
inductive StartSays | started | running | failed
deriving DecidableEq

def startDoc : Nat → Option StartSays
  | 0 => some .started
  | 1 => some .running
  | 4 => some .failed
  | _ => none

/-- What happened: running if there was an answer before; started if there was none and one
of thirty pings afterwards was answered. -/
def startFact (e : StartEnv) (s : StartSays) : Prop :=
  match s with
  | .running => e.first.pong = true
  | .started => e.first.pong = false ∧ e.configOk = true ∧ ∃ i, 1 ≤ i ∧ i ≤ 30 ∧ Reached (e.later i)
  | .failed => e.first.pong = false ∧
      (e.configOk = false ∨ (e.redirect = false ∧ e.launch ≠ 0) ∨
        ∀ i, 1 ≤ i → i ≤ 30 → ¬ Reached (e.later i))

/-- controlhub_stop. -/
inductive StopSays | stopped | already | noContact | general
deriving DecidableEq

def stopDoc : Nat → Option StopSays
  | 0 => some .stopped
  | 1 => some .already
  | 2 => some .noContact
  | 3 => some .general
  | _ => none

end Verif.Spec

namespace Verif
open Verif.HubCtl Verif.Spec

theorem nodetool_ping (c : Contact) : (nodetool .ping c).1 = 0 ↔ Reached c := by
  unfold nodetool Reached
  cases c.connect <;> cases c.pong <;> simp

theorem nodetool_pong (c : Contact) : (nodetool .ping c).2 = .pong ↔ Reached c := by
  unfold nodetool Reached
  cases c.connect <;> cases c.pong <;> simp

theorem ping_zero {c : Contact} (h : Reached c) : ((nodetool .ping c).1 = 0) = True :=
  eq_true ((nodetool_ping c).2 h)

theorem ping_nonzero {c : Contact} (h : ¬ Reached c) : ((nodetool .ping c).1 = 0) = False :=
  eq_false (fun k => h ((nodetool_ping c).1 k))

theorem pong_true {c : Contact} (h : Reached c) : ((nodetool .ping c).2 = .pong) = True :=
  eq_true ((nodetool_pong c).2 h)

theorem pong_false {c : Contact} (h : ¬ Reached c) : ((nodetool .ping c).2 = .pong) = False :=
  eq_false (fun k => h ((nodetool_pong c).1 k))

theorem waitUp_iff (later : Nat → Contact) (n i : Nat) :
    waitUp later n i = true ↔ ∃ k, i ≤ k ∧ k < i + n ∧ Reached (later k) := by
  induction n generalizing i with
  | zero => simp [waitUp]; intro k h1 h2; omega
  | succ n ih =>
    simp only [waitUp]
    by_cases h : Reached (later i)
    · simp only [ping_zero h, if_true, true_iff]
      exact ⟨i, by omega, by omega, h⟩
    · simp only [ping_nonzero h, if_false, ih]
      constructor
      · rintro ⟨k, h1, h2, h3⟩; exact ⟨k, by omega, by omega, h3⟩
      · rintro ⟨k, h1, h2, h3⟩
        have : k ≠ i := by rintro rfl; exact h h3
        exact ⟨k, by omega, by omega, h3⟩

/-- `controlhub_start`: if a node that answers can be connected to, and the launch gives no
code other than 0 and 4, the exit code is documented and says what happened. -/
theorem C101_start_partial (e : StartEnv) (hc : e.first.pong = true → e.first.connect = true)
    (hl : e.redirect = false → e.launch = 0 ∨ e.launch = 4) :
    ∃ s, startDoc (start e) = some s ∧ startFact e s := by
  have hw := waitUp_iff e.later 30 1
  unfold start
  by_cases h1 : Reached e.first
  · simp only [pong_true h1, if_true]
    exact ⟨.running, rfl, h1.2⟩
  · have hp : e.first.pong = false := by
      cases h : e.first.pong with
      | false => rfl
      | true => exact absurd ⟨hc h, h⟩ h1
    simp only [pong_false h1, if_false]
    by_cases h2 : e.configOk = true
    · by_cases h3 : e.redirect = false ∧ e.launch ≠ 0
      · have h4 : e.launch = 4 := by have := hl h3.1; omega
        refine ⟨.failed, ?_, hp, .inr (.inl h3)⟩
        simp [h2, h3.1, h4, startDoc]
      · have h3' : (!e.redirect && decide (e.launch ≠ 0)) = false := by
          cases hr : e.redirect <;> simp_all
        by_cases h5 : waitUp e.later 30 1 = true
        · obtain ⟨k, h6, h7, h8⟩ := hw.1 h5
          refine ⟨.started, ?_, hp, h2, k, h6, by omega, h8⟩
          rw [h3']; simp [h2, h5, startDoc]
        · refine ⟨.failed, ?_, hp, .inr (.inr ?_)⟩
          · rw [h3']; simp [h2, h5, startDoc]
          · intro i h6 h7 h8
            exact h5 (hw.2 ⟨i, h6, by omega, h8⟩)
    · refine ⟨.failed, ?_, hp, .inl (by simpa using h2)⟩
      simp [h2, startDoc]

/-- Down, then reached at the third ping: 0. -/
example : start ⟨⟨false, false, false, 2, true⟩, true, false, 0,
    fun i => ⟨i ≥ 3, i ≥ 3, true, 2, true⟩⟩ = 0 := by decide +kernel
example : start ⟨⟨false, false, false, 2, true⟩, true, false, 0,
    fun _ => ⟨false, false, false, 2, true⟩⟩ = 4 := by decide +kernel

/-- If the launch fails with code 1 the code says that the hub is running, which it is not. -/
theorem C101_violated_start (e : StartEnv) (h1 : e.first.pong = false) (h2 : e.configOk = true)
    (h3 : e.redirect = false) (h4 : e.launch = 1) :
    startDoc (start e) = some .running ∧ ¬ startFact e .running := by
  have : ¬ Reached e.first := by simp [Reached, h1]
  simp [start, pong_false this, h2, h3, h4, startDoc, startFact, h1]

/-- A hub that answers but cannot be connected to is started again. -/
theorem C101_violated_twice (e : StartEnv) (h1 : e.first.pong = true)
    (h0 : e.first.connect = false) (h2 : e.configOk = true) (h3 : e.launch = 0)
    (h4 : Reached (e.later 1)) :
    startDoc (start e) = some .started ∧ startFact e .running := by
  have : ¬ Reached e.first := by simp [Reached, h0]
  have hw : waitUp e.later 30 1 = true := (waitUp_iff _ _ _).2 ⟨1, by omega, by omega, h4⟩
  simp [start, pong_false this, h2, h3, hw, startDoc, startFact, h1]

/-- `controlhub_stop`: if the process can be asked for, what the code says is so. -/
theorem C101_stop_partial (e : StopEnv) (code : Nat) (h : stop e = some code)
    (hpid : Reached e.ping → Reached e.pid ∧ e.pid.rpc = true ∧ 1 < e.pid.pid)
    (hstop : Reached e.ping → Reached e.stop) :
    ∃ s, stopDoc code = some s ∧
      match s with
      | .stopped => Reached e.ping ∧ e.stop.rpc = true ∧ e.gone.isSome ∧ e.silent.isSome
      | .already => ¬ Reached e.ping
      | .noContact => Reached e.ping ∧ e.stop.rpc = false
      | .general => False := by
  unfold stop at h
  by_cases h1 : Reached e.ping
  · obtain ⟨h2, h3, h4⟩ := hpid h1
    have h5 := hstop h1
    have hg : getPid e.pid = (0, some e.pid.pid) := by
      have : ¬ e.pid.pid ≤ 1 := by omega
      simp [getPid, nodetool, h2.1, h2.2, h3, this]
    simp only [ne_eq, pong_true h1, not_true_eq_false, if_false, hg] at h
    cases hr : e.stop.rpc with
    | false =>
      simp [nodetool, h5.1, h5.2, hr] at h
      subst h
      exact ⟨.noContact, rfl, h1, rfl⟩
    | true =>
      simp [nodetool, h5.1, h5.2, hr] at h
      refine ⟨.stopped, by rw [← h.2]; rfl, h1, rfl, ?_, ?_⟩
      · cases hh : e.gone <;> simp_all
      · cases hh : e.silent <;> simp_all
  · simp only [ne_eq, pong_false h1, not_false_eq_true, if_true, Option.some.injEq] at h
    subst h
    exact ⟨.already, rfl, h1⟩

example : stop ⟨⟨true, true, true, 77, true⟩, ⟨true, true, true, 77, true⟩,
    ⟨true, true, true, 77, true⟩, some 3, some 1⟩ = some 0 := by decide +kernel

/-- If the question for the process fails while the hub runs, the code says that the hub
was stopped already. -/
theorem C101_violated_stop (e : StopEnv) (h1 : Reached e.ping) (h2 : Reached e.pid)
    (h3 : e.pid.rpc = false) : (stop e).bind stopDoc = some .already := by
  have hg : getPid e.pid = (1, none) := by simp [getPid, nodetool, h2.1, h2.2, h3]
  simp [stop, pong_true h1, hg, stopDoc]

/-- The code for a general error is never given. -/
theorem C101_violated_general (e : StopEnv) : stop e ≠ some 3 := by
  have hg : (getPid e.pid).1 ≤ 1 := by
    unfold getPid
    split
    · split <;> simp
    · simp
  have hs : (nodetool .stop e.stop).1 ≤ 2 := by
    unfold nodetool
    split
    · simp only; split <;> simp
    · simp
  unfold stop
  simp only
  intro h
  split at h
  · simp at h
  · split at h
    · simp at h; omega
    · split at h
      · simp at h; omega
      · split at h <;> simp at h

/-- `controlhub_stats` and `controlhub_info`: 0, 1 and 2 as documented, and no other code. -/
theorem C101_ask (t : Tool) (ht : t = .stats ∨ t = .info) (c : Contact) :
    (ask t c = 0 ↔ Reached c ∧ c.rpc = true) ∧ (ask t c = 1 ↔ ¬ Reached c) ∧
    (ask t c = 2 ↔ Reached c ∧ c.rpc = false) ∧ ask t c ≤ 2 := by
  rcases ht with rfl | rfl <;> unfold ask nodetool Reached <;>
    cases c.connect <;> cases c.pong <;> cases c.rpc <;> simp

/-- `controlhub_status`: 0 if the hub is up, 1 if it is down; but 127, which is not
documented, if the node runs without the hub, and 2 if it cannot be asked. -/
theorem C101_status_partial (c : Contact) :
    (ask .status c = 0 ↔ Reached c ∧ c.rpc = true ∧ c.app = true) ∧
    (ask .status c = 1 ↔ ¬ Reached c) ∧
    (ask .status c = 127 ↔ Reached c ∧ c.rpc = true ∧ c.app = false) ∧
    (ask .status c = 2 ↔ Reached c ∧ c.rpc = false) := by
  unfold ask nodetool Reached
  cases c.connect <;> cases c.pong <;> cases c.rpc <;> cases c.app <;> simp

end Verif
