import Verif.Lemmas.HubMgr
/-!
# C68: The ControlHub serves and counts its clients

In every run of the processes of a ControlHub (any number of clients and device clients, any order of their steps and of the handling of
messages): there is always one acceptor, or the order to start one; the statistics server does not crash; every counter is in the report once, from
living and from ended processes; connections and the peak are counted right. The number of active clients is right only if no transaction
manager has crashed, and a client that goes away at the wrong moment makes it crash.
-/

set_option autoImplicit false
set_option linter.unusedSimpArgs false

namespace Verif.HubApp
open Verif.TraMgr (TM Lookup)
open Verif.Spec.HubApp

/-- Number of processes with a property. -/
def number (a : App) (f : Proc → Bool) : Nat := (a.procs.filter f).length

/-- The statistics server has handled all messages. -/
def Quiet (a : App) : Prop := ∀ p ∈ a.procs, p.toStats = []

theorem total_one {f : Proc → Bool} {g : Proc → Int} : ∀ (l : List Proc), (∀ p ∈ l, g p = if f p then 1 else 0) → total g l = ((l.filter f).length : Int) := by
  intro l
  induction l with
  | nil => intro _; rfl
  | cons x l ih =>
    intro h
    rw [total_cons, ih fun p hp => h p (List.mem_cons_of_mem _ hp), h x (by simp), List.filter_cons]
    cases f x <;> simp <;> omega

theorem total_plus (f g : Proc → Int) (l : List Proc) : total (fun p => f p + g p) l = total f l + total g l := by
  induction l with
  | nil => rfl
  | cons x l ih => rw [total_cons, total_cons, total_cons, ih]; omega

theorem total_nat (f : Proc → Nat) (l : List Proc) : total (fun p => (f p : Int)) l = ((l.map f).sum : Nat) := by
  induction l with
  | nil => rfl
  | cons x l ih => rw [total_cons, ih]; simp

/-! ## Accepting connections -/

/-- **Always one acceptor.** At any time there is either exactly one transaction manager in `gen_tcp:accept`, or exactly one order for the listener to
start one. -/
theorem C68_acceptor {es : List Ev} {a : App} (hr : App.init.run es = some a) :
    number a (fun p => p.kind = .manager ∧ p.phase = .accepting) + (a.procs.map (·.toListener)).sum = 1 := by
  have h := (reach hr).acc
  have e : accA = fun p => one (p.kind = .manager ∧ p.phase = .accepting) + ((p.toListener : Nat) : Int) := rfl
  rw [e, total_plus, total_nat, total_one (f := fun p => decide (p.kind = .manager ∧ p.phase = .accepting)) _ (fun p _ => by simp [one])] at h
  have h' : ((a.procs.filter fun p => decide (p.kind = .manager ∧ p.phase = .accepting)).length : Int) + ((a.procs.map (·.toListener)).sum : Nat) = 1 := h
  unfold number
  omega

/-! ## Connections -/

/-- The events by which a connection is accepted. -/
def Ev.isConnection : Ev → Bool
  | .accept _ .unnamed => true
  | .accept _ .named => true
  | _ => false

/-- The events by which an acceptor ends without a client. -/
def Ev.isFailure : Ev → Bool
  | .accept _ .unnamed => true
  | .accept _ .error => true
  | _ => false

/-- This process has had a connection. -/
def had (p : Proc) : Int := one (p.kind = .manager ∧ (p.phase = .running ∨ p.phase = .closed ∨ p.phase = .crashed ∨ p.phase = .unnamed))

/-- This process has ended and left a socket process. -/
def orphan (p : Proc) : Int := one (p.sock = .waiting ∧ p.phase ≠ .accepting)

theorem handle_total {a : App} {c : Nat → Table} {n : Int} {i : Nat} {p : Proc} {m : Msg} {ms : List Msg} (f : Proc → Int) (_ : Inv n a c)
    (hp : a.procs[i]? = some p) (hf : ∀ x t, f { p with toStats := x, table := t } = f p) :
    total f ((a.set i { p with toStats := ms }).handle i { p with toStats := ms } m).procs = total f a.procs := by
  have hlt : i < a.procs.length := by
    rcases Nat.lt_or_ge i a.procs.length with hl | hl
    · exact hl
    · rw [List.getElem?_eq_none hl] at hp; simp at hp
  rcases handle_procs (a.set i { p with toStats := ms }) i { p with toStats := ms } m with e | e
  · rw [e]
    show total f (a.procs.set i _) = _
    rw [total_set _ _ _ _ _ hp]
    have := hf ms p.table
    omega
  · rw [e]
    show total f ((a.procs.set i _).set i _) = _
    rw [List.set_set, total_set _ _ _ _ _ hp]
    have := hf ms none
    show total f a.procs - f p + f { p with toStats := ms, table := none } = _
    omega

theorem take_had {p : Proc} (hk : p.kind = .manager) (hph : p.phase = .running) (e : TraMgr.Ev) : had (p.take e) = had p := by
  unfold Proc.take had
  simp only []
  split
  · simp [hk, hph, one]
  · split <;> simp [hk, hph, one]

theorem take_orphan {p : Proc} (hP : PInv p) (hk : p.kind = .manager) (hph : p.phase = .running) (e : TraMgr.Ev) : orphan (p.take e) = orphan p := by
  have hs := (hP.serve hk).mpr hph
  unfold Proc.take orphan
  simp only []
  split
  · simp [hs, one]
  · split <;> simp [hs, one]

theorem step_had {n : Int} {a a' : App} {c : Nat → Table} {e : Ev} (h : Inv n a c) (hs : a.step e = some a') :
    total had a'.procs = total had a.procs + (if e.isConnection then 1 else 0) ∧
    total orphan a'.procs = total orphan a.procs + (if e.isFailure then 1 else 0) := by
  cases e with
  | accept i r =>
    simp only [App.step] at hs
    split at hs
    · rename_i p hp
      split at hs
      · rename_i hc
        injection hs with hs; subst hs
        have hw := ((h.procs i p hp).wait hc.1).mpr (.inl hc.2)
        have e1 : (a.set i (p.accept r)).procs = a.procs.set i (p.accept r) := rfl
        rw [e1, total_set _ _ _ _ _ hp, total_set _ _ _ _ _ hp]
        cases r <;> simp [had, orphan, Proc.accept, hc.1, hc.2, hw, one, Ev.isConnection, Ev.isFailure]
      · cases hs
    · cases hs
  | take i x =>
    simp only [App.step] at hs
    split at hs
    · rename_i p hp
      split at hs
      · rename_i hc
        injection hs with hs; subst hs
        have e1 : (a.set i (p.take x)).procs = a.procs.set i (p.take x) := rfl
        rw [e1, total_set _ _ _ _ _ hp, total_set _ _ _ _ _ hp, take_had hc.1 hc.2, take_orphan (h.procs i p hp) hc.1 hc.2]
        simp [Ev.isConnection, Ev.isFailure]
      · cases hs
    · cases hs
  | sendFails i =>
    simp only [App.step] at hs
    split at hs
    · rename_i p hp
      split at hs
      · rename_i hc
        injection hs with hs; subst hs
        have e1 : (a.set i p.sendFails).procs = a.procs.set i p.sendFails := rfl
        have hsv := ((h.procs i p hp).serve hc.1).mpr hc.2.1
        rw [e1, total_set _ _ _ _ _ hp, total_set _ _ _ _ _ hp]
        simp [had, orphan, Proc.sendFails, hc.1, hc.2.1, hsv, one, Ev.isConnection, Ev.isFailure]
      · cases hs
    · cases hs
  | device =>
    simp only [App.step] at hs
    injection hs with hs; subst hs
    simp only [total_append]
    simp [total, had, orphan, Proc.device, one, Ev.isConnection, Ev.isFailure]
  | count i k =>
    simp only [App.step] at hs
    split at hs
    · rename_i p hp
      split at hs
      · rename_i hc
        injection hs with hs; subst hs
        have e1 : ∀ q, (a.set i q).procs = a.procs.set i q := fun _ => rfl
        rw [e1, total_set _ _ _ _ _ hp, total_set _ _ _ _ _ hp]
        simp [had, orphan, Ev.isConnection, Ev.isFailure]
      · cases hs
    · cases hs
  | exit i =>
    simp only [App.step] at hs
    split at hs
    · rename_i p hp
      split at hs
      · rename_i hc
        injection hs with hs; subst hs
        have e1 : ∀ q, (a.set i q).procs = a.procs.set i q := fun _ => rfl
        have hd := (h.procs i p hp).dsock hc.1
        rw [e1, total_set _ _ _ _ _ hp, total_set _ _ _ _ _ hp]
        simp [had, orphan, hc.1, hd, one, Ev.isConnection, Ev.isFailure]
      · cases hs
    · cases hs
  | listen i =>
    simp only [App.step] at hs
    split at hs
    · rename_i p hp
      split at hs
      · cases hs
      · rename_i m hm
        injection hs with hs; subst hs
        have e1 : ∀ q, (a.set i q).procs = a.procs.set i q := fun _ => rfl
        simp only [total_append, e1]
        rw [total_set _ _ _ _ _ hp, total_set _ _ _ _ _ hp]
        simp [total, had, orphan, Proc.acceptor, one, Ev.isConnection, Ev.isFailure]
    · cases hs
  | stats i =>
    simp only [App.step] at hs
    split at hs
    · rename_i p hp
      split at hs
      · cases hs
      · rename_i m ms hm
        split at hs
        · injection hs with hs; subst hs
          rw [handle_total had h hp (fun _ _ => rfl), handle_total orphan h hp (fun _ _ => rfl)]
          simp [Ev.isConnection, Ev.isFailure]
        · cases hs
    · cases hs

theorem run_had {n : Int} (es : List Ev) : ∀ {a a' : App} {c : Nat → Table}, Inv n a c → a.run es = some a' →
    total had a'.procs = total had a.procs + (es.countP Ev.isConnection : Nat) ∧ total orphan a'.procs = total orphan a.procs + (es.countP Ev.isFailure : Nat) := by
  induction es with
  | nil =>
    intro a a' c h hr
    simp only [App.run, Option.some.injEq] at hr
    subst hr; simp
  | cons e es ih =>
    intro a a' c h hr
    rw [App.run] at hr
    cases hs : a.step e with
    | none => rw [hs] at hr; cases hr
    | some b =>
      rw [hs] at hr
      have h1 := step_had h hs
      have h2 := ih (inv_step h hs) hr
      rw [List.countP_cons, List.countP_cons]
      refine ⟨?_, ?_⟩
      · rw [h2.1, h1.1]; push_cast; split <;> simp_all <;> omega
      · rw [h2.2, h1.2]; push_cast; split <;> simp_all <;> omega

/-- **Connections.** Once all messages are handled, the number of connections in the report is the number of those that were accepted. -/
theorem C68_connections {es : List Ev} {a : App} (hr : App.init.run es = some a) (hq : Quiet a) : a.cumulative = (es.countP Ev.isConnection : Nat) := by
  have h := reach hr
  have h1 := (run_had es inv_init hr).1
  have h0 : total had App.init.procs = 0 := by decide
  rw [← h.cum, ← Int.zero_add ((es.countP Ev.isConnection : Nat) : Int), ← h0, ← h1]
  unfold total
  congr 1
  apply List.map_congr_left
  intro p hp
  simp [cumC, had, hq p hp]

/-- **Active clients.** Once all messages are handled, the number of active clients in the report is that of the connections that are being served and
of those whose transaction manager has crashed. -/
theorem C68_active {es : List Ev} {a : App} (hr : App.init.run es = some a) (hq : Quiet a) :
    a.active = (number a (fun p => p.kind = .manager ∧ p.phase = .running) + number a (fun p => p.kind = .manager ∧ p.phase = .crashed) : Nat) := by
  have h := reach hr
  rw [← h.act]
  have e : total actB a.procs = total (fun p => one (p.kind = .manager ∧ p.phase = .running) + one (p.kind = .manager ∧ p.phase = .crashed)) a.procs := by
    unfold total
    congr 1
    apply List.map_congr_left
    intro p hp
    simp only [actB, hq p hp, List.count_nil]
    cases p.kind <;> cases p.phase <;> simp [one]
  rw [e, total_plus, total_one (f := fun p => decide (p.kind = .manager ∧ p.phase = .running)) _ (fun p _ => by simp [one]),
    total_one (f := fun p => decide (p.kind = .manager ∧ p.phase = .crashed)) _ (fun p _ => by simp [one])]
  unfold number
  push_cast
  rfl

/-- The number of active clients is right as long as no transaction manager has crashed (see `C68_violated_active`). -/
theorem C68_active_partial {es : List Ev} {a : App} (hr : App.init.run es = some a) (hq : Quiet a)
    (hc : ∀ p ∈ a.procs, p.kind = .manager → p.phase ≠ .crashed) : a.active = (number a (fun p => p.kind = .manager ∧ p.phase = .running) : Nat) := by
  rw [C68_active hr hq]
  have : number a (fun p => p.kind = .manager ∧ p.phase = .crashed) = 0 := by
    unfold number
    rw [List.length_eq_zero_iff, List.filter_eq_nil_iff]
    intro p hp hd
    have hd := of_decide_eq_true hd
    exact hc p hp hd.1 hd.2
  rw [this]; simp

/-- The number of active clients at the beginning and after each event. -/
def actives (a : App) : List Ev → List Int
  | [] => [a.active]
  | e :: es => match a.step e with
    | some b => a.active :: actives b es
    | none => [a.active]

theorem handle_peak (a : App) (i : Nat) (p : Proc) (m : Msg) :
    a.peak ≤ (a.handle i p m).peak ∧ ((a.handle i p m).peak = a.peak ∨ (a.handle i p m).peak = (a.handle i p m).active) := by
  cases m with
  | connected =>
    simp only [App.handle]
    by_cases hx : a.peak < a.active + 1
    · rw [if_pos hx]; exact ⟨by omega, .inr rfl⟩
    · rw [if_neg hx]; exact ⟨by omega, .inl rfl⟩
  | disconnected => exact ⟨Int.le_refl _, .inl rfl⟩
  | newTable =>
    simp only [App.handle]
    cases p.kind <;> exact ⟨Int.le_refl _, .inl rfl⟩
  | transfer =>
    simp only [App.handle]
    cases p.table with
    | none => exact ⟨Int.le_refl _, .inl rfl⟩
    | some t => cases p.kind <;> exact ⟨Int.le_refl _, .inl rfl⟩

theorem step_peak {a b : App} {e : Ev} (hs : a.step e = some b) : a.peak ≤ b.peak ∧ (b.peak = a.peak ∨ b.peak = b.active) := by
  cases e with
  | stats i =>
    simp only [App.step] at hs
    split at hs
    · rename_i p hp
      split at hs
      · cases hs
      · rename_i m ms hm
        split at hs
        · injection hs with hs; subst hs
          exact handle_peak _ _ _ _
        · cases hs
    · cases hs
  | device => simp only [App.step] at hs; injection hs with hs; subst hs; exact ⟨Int.le_refl _, .inl rfl⟩
  | listen i =>
    simp only [App.step] at hs
    split at hs
    · split at hs
      · cases hs
      · injection hs with hs; subst hs; exact ⟨Int.le_refl _, .inl rfl⟩
    · cases hs
  | _ =>
    simp only [App.step] at hs
    split at hs
    · split at hs
      · injection hs with hs; subst hs; exact ⟨Int.le_refl _, .inl rfl⟩
      · cases hs
    · cases hs

theorem actives_head (a : App) (es : List Ev) : a.active ∈ actives a es := by
  cases es with
  | nil => simp [actives]
  | cons e es => rw [actives]; split <;> simp

theorem run_peak {n : Int} (es : List Ev) : ∀ {a a' : App} {c : Nat → Table}, Inv n a c → a.run es = some a' →
    a.peak ≤ a'.peak ∧ (∀ x ∈ actives a es, x ≤ a'.peak) ∧ (a'.peak = a.peak ∨ a'.peak ∈ actives a es) := by
  induction es with
  | nil =>
    intro a a' c h hr
    simp only [App.run, Option.some.injEq] at hr
    subst hr
    exact ⟨Int.le_refl _, by simpa [actives] using h.peak, .inl rfl⟩
  | cons e es ih =>
    intro a a' c h hr
    rw [App.run] at hr
    cases hs : a.step e with
    | none => rw [hs] at hr; cases hr
    | some b =>
      rw [hs] at hr
      obtain ⟨h1, h2⟩ := step_peak hs
      obtain ⟨i1, i2, i3⟩ := ih (inv_step h hs) hr
      rw [actives, hs]
      refine ⟨by omega, ?_, ?_⟩
      · intro x hx
        rcases List.mem_cons.mp hx with rfl | hx
        · have := h.peak; omega
        · exact i2 x hx
      · rcases i3 with i3 | i3
        · rcases h2 with h2 | h2
          · exact .inl (by omega)
          · refine .inr (List.mem_cons_of_mem _ ?_)
            rw [i3, h2]; exact actives_head b es
        · exact .inr (List.mem_cons_of_mem _ i3)

/-- **Peak.** The peak in the report is the largest number of active clients that the statistics server has had, and that number is never negative. -/
theorem C68_peak {es : List Ev} {a : App} (hr : App.init.run es = some a) :
    (∀ x ∈ actives App.init es, x ≤ a.peak) ∧ a.peak ∈ actives App.init es ∧ 0 ≤ a.active := by
  obtain ⟨_, h2, h3⟩ := run_peak es inv_init hr
  refine ⟨h2, ?_, ?_⟩
  · rcases h3 with h3 | h3
    · rw [h3]; exact actives_head App.init es
    · exact h3
  · have h := reach hr
    rw [← h.act]
    refine total_nonneg _ _ fun i p hp => ?_
    have hP := h.procs i p hp
    have hq := hP.q
    have hd := hP.dev
    unfold actB
    revert hq hd
    cases p.kind <;> cases p.phase <;> simp only [full, one] <;> intro hq hd
    all_goals
      first
      | (exfalso; simp at hd; done)
      | (simp [List.suffix_cons_iff] at hq
         first
         | (rcases hq with hq | hq | hq | hq | hq <;> rw [hq] <;> decide)
         | (rcases hq with hq | hq | hq | hq <;> rw [hq] <;> decide)
         | (rcases hq with hq | hq | hq <;> rw [hq] <;> decide)
         | (rcases hq with hq | hq <;> rw [hq] <;> decide)
         | (rw [hq]; decide))

/-! ## Reports -/

theorem tables_some {n : Int} {a : App} {c : Nat → Table} (h : Inv n a c) (kd : Kind) : ∀ (l : List Nat),
    (∀ i ∈ l, ∃ p, a.procs[i]? = some p ∧ Listed kd p) → a.tables l = some (l.map c) := by
  intro l
  induction l with
  | nil => intro _; rfl
  | cons i l ih =>
    intro hl
    obtain ⟨p, hp, hL⟩ := hl i (by simp)
    obtain ⟨t, ht⟩ := Option.isSome_iff_exists.mp hL.2.1
    rw [App.tables, ih fun j hj => hl j (List.mem_cons_of_mem _ hj), hp]
    simp only [Option.bind_some, ht, List.map_cons]
    rw [h.tab i p t hp ht]

/-- **The statistics server does not crash**, and a report is always possible. It contains what the listed processes have counted. -/
theorem C68_report {es : List Ev} {a : App} (hr : App.init.run es = some a) : a.ok = true ∧
    a.report = some ⟨a.cumulative, a.active, a.peak, a.clients.map fun i => counted App.init i es, a.oldClients,
      a.devices.map fun i => counted App.init i es, a.oldDevices⟩ := by
  have h := reach hr
  refine ⟨h.ok, ?_⟩
  rw [App.report, tables_some h .manager a.clients fun i hi => (h.cls i).mp hi, tables_some h .device a.devices fun i hi => (h.dvs i).mp hi]

/-- Once all messages are handled, the processes listed in a report are those that are running, each of them once. -/
theorem C68_listed {es : List Ev} {a : App} (hr : App.init.run es = some a) (hq : Quiet a) :
    a.clients.Nodup ∧ (∀ i, i ∈ a.clients ↔ ∃ p, a.procs[i]? = some p ∧ p.kind = .manager ∧ p.phase = .running) ∧
    a.devices.Nodup ∧ (∀ i, i ∈ a.devices ↔ ∃ p, a.procs[i]? = some p ∧ p.kind = .device ∧ p.phase = .running) := by
  have h := reach hr
  have hl : ∀ kd (i : Nat), (∃ p, a.procs[i]? = some p ∧ Listed kd p) ↔ ∃ p, a.procs[i]? = some p ∧ p.kind = kd ∧ p.phase = .running := by
    intro kd i
    constructor
    · rintro ⟨p, hp, h1, h2, _⟩
      have := (h.procs i p hp).t.mp h2
      rw [hq p (List.mem_of_getElem? hp)] at this
      exact ⟨p, hp, h1, by simpa using this⟩
    · rintro ⟨p, hp, h1, h2⟩
      exact ⟨p, hp, h1, (h.procs i p hp).t.mpr (.inl h2), by rw [hq p (List.mem_of_getElem? hp)]; simp⟩
  exact ⟨h.cnd, fun i => (h.cls i).trans (hl _ i), h.dnd, fun i => (h.dvs i).trans (hl _ i)⟩

theorem sum_nodup (f : Nat → Nat) (n : Nat) : ∀ (l : List Nat), l.Nodup → (∀ i ∈ l, i < n) → (l.map f).sum = sumTo (fun i => if i ∈ l then f i else 0) n := by
  intro l
  induction l with
  | nil =>
    intro _ _
    induction n with
    | zero => rfl
    | succ n ih => rw [sumTo, ← ih (by simp)]; simp
  | cons x l ih =>
    intro hn hb
    rw [List.nodup_cons] at hn
    have h1 := ih hn.2 fun i hi => hb i (List.mem_cons_of_mem _ hi)
    have h2 := sumTo_change (f := fun i => if i ∈ l then f i else 0) (g := fun i => if i ∈ x :: l then f i else 0) (j := x) n (hb x (by simp))
      (fun i hi => by simp [hi])
    simp only [hn.1, if_false, List.mem_cons, true_or, if_true] at h2
    simp only [List.map_cons, List.sum_cons, h1, List.mem_cons]
    omega

theorem sumTo_plus (f g : Nat → Nat) (n : Nat) : sumTo (fun i => f i + g i) n = sumTo f n + sumTo g n := by
  induction n with
  | zero => rfl
  | succ n ih => rw [sumTo, sumTo, sumTo, ih]; omega

/-- The sum of what the processes of a kind have counted. -/
def sumOf (a : App) (kd : Kind) (f : Nat → Nat) : Nat :=
  sumTo (fun i => match a.procs[i]? with
    | some p => if p.kind = kd then f i else 0
    | none => 0) a.procs.length

theorem split_sum {a : App} {c : Nat → Table} (hq : ∀ p ∈ a.procs, .newTable ∉ p.toStats) (kd : Kind) (l : List Nat) (hn : l.Nodup)
    (hl : ∀ i, i ∈ l ↔ ∃ p, a.procs[i]? = some p ∧ Listed kd p) (k : Key) :
    sumTo (left a c kd k) a.procs.length + ((l.map c).map fun t => t k).sum = sumOf a kd fun i => c i k := by
  have hb : ∀ i ∈ l, i < a.procs.length := by
    intro i hi
    obtain ⟨p, hp, -⟩ := (hl i).mp hi
    rcases Nat.lt_or_ge i a.procs.length with hl | hl
    · exact hl
    · rw [List.getElem?_eq_none hl] at hp; simp at hp
  rw [List.map_map, sum_nodup _ a.procs.length l hn hb, sumOf, ← sumTo_plus]
  refine sumTo_congr _ fun i hi => ?_
  obtain ⟨p, hp⟩ : ∃ p, a.procs[i]? = some p := ⟨_, List.getElem?_eq_getElem hi⟩
  have hm : i ∈ l ↔ Listed kd p := by rw [hl i, hp]; simp
  simp only [left, hp, Function.comp]
  have hnt := hq p (List.mem_of_getElem? hp)
  by_cases hk : p.kind = kd
  · cases ht : p.table with
    | none =>
      have : i ∉ l := fun hi => by have := (hm.mp hi).2.1; rw [ht] at this; simp at this
      simp [hk, this]
    | some t =>
      have : i ∈ l := hm.mpr ⟨hk, by rw [ht]; rfl, hnt⟩
      simp [hk, this]
  · have : i ∉ l := fun hi => hk (hm.mp hi).1
    simp [hk, this]

/-- **Nothing is lost or counted twice.** As soon as the statistics server knows all tables, the numbers in a report for the living and the ended clients add
up to what all transaction managers have counted since the start, and likewise for the device clients. -/
theorem C68_totals {es : List Ev} {a : App} (hr : App.init.run es = some a) (hq : ∀ p ∈ a.procs, .newTable ∉ p.toStats) :
    ∃ r, a.report = some r ∧
      (∀ k, r.oldClients k + (r.clients.map fun t => t k).sum = sumOf a .manager fun i => counted App.init i es k) ∧
      (∀ k, r.oldDevices k + (r.devices.map fun t => t k).sum = sumOf a .device fun i => counted App.init i es k) := by
  have h := reach hr
  refine ⟨_, (C68_report hr).2, fun k => ?_, fun k => ?_⟩
  · show a.oldClients k + _ = _
    rw [h.oldc k]
    exact split_sum hq .manager a.clients h.cnd h.cls k
  · show a.oldDevices k + _ = _
    rw [h.oldd k]
    exact split_sum hq .device a.devices h.dnd h.dvs k

/-! ## What a transaction manager counts -/

/-- **Requests and answers.** At any time, for every transaction manager: the requests it has counted are the packets that it has handed to device
clients; the answers it has counted are those in its messages to the client; the difference are the packets in flight and the answers that wait for
others. -/
theorem C68_packets {es : List Ev} {a : App} (hr : App.init.run es = some a) {i : Nat} {p : Proc} (hp : a.procs[i]? = some p) (hk : p.kind = .manager) :
    counted App.init i es .requestsIn = p.tm.casts.length ∧ Sent p.tm.sent (counted App.init i es .responsesSent) ∧
    (counted App.init i es .requestsIn : Int) = counted App.init i es .responsesSent + p.tm.nrAcc + p.tm.inFlight := by
  have h := mreach hr i p hp hk
  refine ⟨h.req, h.sent, ?_⟩
  have h1 := h.bal
  have h2 : counted App.init i es .requestsIn = p.tm.casts.length := h.req
  simp only [] at h1
  omega

/-- **Malformed messages.** A message from the client counts as malformed once if it is not a sequence of packets, otherwise not (for a target that
has a device client). -/
theorem C68_malformed (s : TM) (t : Table) (bin : List Nat) (pid : Nat) :
    (WellFormed bin → count s t (.chunk bin (.pid pid)) .requestsMalformed = t .requestsMalformed) ∧
    (¬ WellFormed bin → count s t (.chunk bin (.pid pid)) .requestsMalformed = t .requestsMalformed + 1) := by
  have hm := malformed_iff (look := .pid pid) (p := pid) (bin.length + 1) bin none (Nat.lt_succ_self _) rfl
  have hd : ∀ u : Table, (match (TraMgr.unpack (.pid pid) (bin.length + 1) bin none 0).1 with
      | .done _ nr => u.add .requestsIn nr
      | _ => u) .requestsMalformed = u .requestsMalformed := by
    intro u
    cases (TraMgr.unpack (.pid pid) (bin.length + 1) bin none 0).1 <;> simp [add_apply]
  constructor
  · intro hw
    have hl := wellFormed_len hw
    have hf : malformed (.pid pid) (bin.length + 1) bin none = false := by
      rcases Bool.eq_false_or_eq_true (malformed (.pid pid) (bin.length + 1) bin none) with h | h
      · exact absurd hw (hm.mp h)
      · exact h
    simp only [count, hl, if_true, hf, Bool.false_eq_true, if_false]
    exact hd t
  · intro hw
    by_cases hl : bin.length % 4 = 0
    · simp only [count, hl, if_true, hm.mpr hw]
      refine (hd (t.add .requestsMalformed 1)).trans ?_
      simp [add_apply]
    · simp only [count, hl, if_false, add_apply, if_true]

/-! ## What goes wrong -/

/-- The number of socket processes whose transaction manager has gone, and which wait for it forever, is the number of connections that could not be
accepted or had no peer name any more. -/
theorem C68_orphans {es : List Ev} {a : App} (hr : App.init.run es = some a) :
    number a (fun p => p.sock = .waiting ∧ p.phase ≠ .accepting) = es.countP Ev.isFailure := by
  have h1 := (run_had es inv_init hr).2
  have h0 : total orphan App.init.procs = 0 := by decide
  rw [h0, total_one (f := fun p => decide (p.sock = .waiting ∧ p.phase ≠ .accepting)) _ (fun p _ => by simp [orphan, one])] at h1
  unfold number
  omega

/-- The events of one client of a blocked target that goes away before it has got the refusal; `i` is the acceptor. -/
def rudeClient (i : Nat) : List Ev :=
  [.accept i .named, .take i (.chunk [10, 0, 0, 1, 0xc3, 0x51, 0, 1, 0x20, 0, 0, 0xf0] .blocked), .sendFails i, .listen i, .stats i, .stats i, .stats i]

/-- What is left of it. -/
def rest : Proc :=
  ⟨.manager, .crashed, .gone, { TM.init with sent := [[0, 0, 0, 8, 10, 0, 0, 1, 0xc3, 0x51, 0, 7]] }, none, 0, []⟩

theorem step_at (a : App) (l : List Proc) (p : Proc) (m : List Proc) (h : a.procs = l ++ p :: m) : a.procs[l.length]? = some p ∧
    ∀ q, a.procs.set l.length q = l ++ q :: m := by
  rw [h]
  exact ⟨by simp, fun q => by rw [List.set_append_right _ _ (Nat.le_refl _)]; simp⟩

theorem run_cons {a b : App} {e : Ev} {es : List Ev} (h : a.step e = some b) : a.run (e :: es) = b.run es := by rw [App.run, h]

theorem rude_run (a : App) (l : List Proc) (hp : a.procs = l ++ [Proc.acceptor]) (hok : a.ok = true) (hcl : a.clients = []) :
    ∃ b, a.run (rudeClient l.length) = some b ∧ b.procs = (l ++ [rest]) ++ [Proc.acceptor] ∧ b.ok = true ∧ b.clients = [] ∧ b.active = a.active + 1 := by
  obtain ⟨procs, active, peak, cumulative, oldClients, oldDevices, clients, devices, ok⟩ := a
  simp only at hp hok hcl
  subst hp hok hcl
  have hg : ∀ (p : Proc) (m : List Proc), (l ++ p :: m)[l.length]? = some p := fun p m => by simp
  have hs : ∀ (p q : Proc) (m : List Proc), (l ++ p :: m).set l.length q = l ++ q :: m := fun p q m => by
    rw [List.set_append_right _ _ (Nat.le_refl _)]; simp
  unfold rudeClient
  rw [run_cons (b := ⟨l ++ [(Proc.acceptor).accept .named], active, peak, cumulative, oldClients, oldDevices, [], devices, true⟩)
    (by simp only [App.step, hg, App.set, hs]; rfl)]
  rw [run_cons (b := ⟨l ++ [((Proc.acceptor).accept .named).take (.chunk [10, 0, 0, 1, 0xc3, 0x51, 0, 1, 0x20, 0, 0, 0xf0] .blocked)], active, peak, cumulative,
    oldClients, oldDevices, [], devices, true⟩) (by simp only [App.step, hg, App.set, hs]; rfl)]
  rw [run_cons (b := ⟨l ++ [{ rest with toListener := 1, table := some Table.zero, toStats := [.connected, .newTable, .transfer] }], active, peak, cumulative,
    oldClients, oldDevices, [], devices, true⟩) (by simp only [App.step, hg, App.set, hs]; rfl)]
  rw [run_cons (b := ⟨l ++ [{ rest with table := some Table.zero, toStats := [.connected, .newTable, .transfer] }, Proc.acceptor], active, peak, cumulative,
    oldClients, oldDevices, [], devices, true⟩) (by simp only [App.step, hg, App.set, hs, List.append_assoc]; rfl)]
  rw [run_cons (b := ⟨l ++ [{ rest with table := some Table.zero, toStats := [.newTable, .transfer] }, Proc.acceptor], active + 1,
    if peak < active + 1 then active + 1 else peak, cumulative + 1, oldClients, oldDevices, [], devices, true⟩) (by simp only [App.step, hg, App.set, hs]; rfl)]
  rw [run_cons (b := ⟨l ++ [{ rest with table := some Table.zero, toStats := [.transfer] }, Proc.acceptor], active + 1,
    if peak < active + 1 then active + 1 else peak, cumulative + 1, oldClients, oldDevices, [l.length], devices, true⟩)
    (by simp only [App.step, hg, App.set, hs]; rfl)]
  rw [run_cons (b := ⟨l ++ [rest, Proc.acceptor], active + 1, if peak < active + 1 then active + 1 else peak, cumulative + 1,
    oldClients.merge Table.zero clientKeys, oldDevices, [], devices, true⟩)
    (by simp only [App.step, hg, App.set, hs, App.handle, rest, keydelete, if_true])]
  exact ⟨_, rfl, by simp, rfl, rfl, rfl⟩

theorem run_append (l m : List Ev) : ∀ (a : App), a.run (l ++ m) = (a.run l).bind fun b => b.run m := by
  induction l with
  | nil => intro a; rfl
  | cons e l ih =>
    intro a
    rw [List.cons_append, App.run, App.run]
    cases a.step e with
    | none => rfl
    | some b => exact ih b

theorem rude_many : ∀ (n : Nat), ∃ es b, App.init.run es = some b ∧ b.procs = List.replicate n rest ++ [Proc.acceptor] ∧ b.ok = true ∧ b.clients = [] ∧ b.active = n := by
  intro n
  induction n with
  | zero => exact ⟨[], App.init, rfl, rfl, rfl, rfl, rfl⟩
  | succ n ih =>
    obtain ⟨es, b, h1, h2, h3, h4, h5⟩ := ih
    obtain ⟨b', g1, g2, g3, g4, g5⟩ := rude_run b (List.replicate n rest) h2 h3 h4
    rw [List.length_replicate] at g1
    refine ⟨es ++ rudeClient n, b', ?_, ?_, g3, g4, ?_⟩
    · rw [run_append, h1]; exact g1
    · rw [g2, List.replicate_succ']
    · rw [g5, h5]; push_cast; rfl

/-- **The number of active clients is wrong** after clients have gone away while a message to them was being sent: any number of clients is reported
as active although all of them are gone, all their processes have ended, and all messages are handled. -/
theorem C68_violated_active (n : Nat) : ∃ es a, App.init.run es = some a ∧ Quiet a ∧ a.active = n ∧
    number a (fun p => p.kind = .manager ∧ p.phase = .running) = 0 := by
  obtain ⟨es, a, h1, h2, -, -, h5⟩ := rude_many n
  refine ⟨es, a, h1, ?_, h5, ?_⟩
  · intro p hp
    rw [h2, List.mem_append] at hp
    rcases hp with hp | hp
    · rw [(List.mem_replicate.mp hp).2]; rfl
    · rw [List.mem_singleton.mp hp]; rfl
  · unfold number
    rw [List.length_eq_zero_iff, List.filter_eq_nil_iff]
    intro p hp
    rw [h2, List.mem_append] at hp
    rcases hp with hp | hp
    · rw [(List.mem_replicate.mp hp).2]; decide
    · rw [List.mem_singleton.mp hp]; decide

/-- **Processes are left over**: if `gen_tcp:accept` fails, the next acceptor is started at once, and the socket process of the old one stays. Any number of
them can pile up (by `C68_orphans` none of them ever ends). -/
theorem C68_violated_orphans (n : Nat) : ∃ es a, App.init.run es = some a ∧ Quiet a ∧
    number a (fun p => p.sock = .waiting ∧ p.phase ≠ .accepting) = n ∧ number a (fun p => p.kind = .manager ∧ p.phase = .running) = 0 := by
  have key : ∀ n : Nat, ∃ es a, App.init.run es = some a ∧
      a.procs = List.replicate n { Proc.acceptor with phase := .failed } ++ [Proc.acceptor] ∧ es.countP Ev.isFailure = n := by
    intro n
    induction n with
    | zero => exact ⟨[], App.init, rfl, rfl, rfl⟩
    | succ n ih =>
      obtain ⟨es, b, h1, h2, h3⟩ := ih
      refine ⟨es ++ [.accept n .error, .listen n],
        { b with procs := List.replicate n { Proc.acceptor with phase := .failed } ++ [{ Proc.acceptor with phase := .failed }, Proc.acceptor] }, ?_, ?_, ?_⟩
      · rw [run_append, h1]
        obtain ⟨procs, active, peak, cumulative, oldClients, oldDevices, clients, devices, ok⟩ := b
        simp only at h2
        subst h2
        have hg : ∀ (p : Proc) (m : List Proc), (List.replicate n { Proc.acceptor with phase := .failed } ++ p :: m)[n]? = some p := fun p m => by
          rw [List.getElem?_append_right (by simp)]; simp
        have hs : ∀ (p q : Proc) (m : List Proc), (List.replicate n { Proc.acceptor with phase := .failed } ++ p :: m).set n q =
            List.replicate n { Proc.acceptor with phase := .failed } ++ q :: m := fun p q m => by
          rw [List.set_append_right _ _ (by simp)]; simp
        simp only [Option.bind_some]
        rw [run_cons (b := ⟨List.replicate n { Proc.acceptor with phase := .failed } ++ [{ Proc.acceptor with phase := .failed, toListener := 1 }], active, peak,
          cumulative, oldClients, oldDevices, clients, devices, ok⟩) (by simp only [App.step, hg, App.set, hs]; rfl)]
        rw [run_cons (b := ⟨List.replicate n { Proc.acceptor with phase := .failed } ++ [{ Proc.acceptor with phase := .failed }, Proc.acceptor], active, peak,
          cumulative, oldClients, oldDevices, clients, devices, ok⟩) (by simp only [App.step, hg, App.set, hs, List.append_assoc]; rfl)]
        rfl
      · simp [List.replicate_succ']
      · rw [List.countP_append, h3]; rfl
  obtain ⟨es, a, h1, h2, h3⟩ := key n
  refine ⟨es, a, h1, ?_, ?_, ?_⟩
  · intro p hp
    rw [h2, List.mem_append] at hp
    rcases hp with hp | hp
    · rw [(List.mem_replicate.mp hp).2]; rfl
    · rw [List.mem_singleton.mp hp]; rfl
  · rw [C68_orphans h1, h3]
  · unfold number
    rw [List.length_eq_zero_iff, List.filter_eq_nil_iff]
    intro p hp
    rw [h2, List.mem_append] at hp
    rcases hp with hp | hp
    · rw [(List.mem_replicate.mp hp).2]; decide
    · rw [List.mem_singleton.mp hp]; decide

/-! ## An example -/

/-- A client with two packets in one message, of which one is answered; a device client that counts; a second client that leaves. -/
def demo : List Ev :=
  [.accept 0 .named, .listen 0, .device, .stats 0, .stats 0, .stats 2, .accept 1 .named, .listen 1, .stats 1, .stats 1,
   .take 0 (.chunk [10, 0, 0, 1, 0xc3, 0x51, 0, 1, 0x20, 0, 0, 0xf0, 10, 0, 0, 1, 0xc3, 0x51, 0, 1, 0x20, 0, 0, 0xf0] (.pid 2)), .count 2 .udpSent, .count 2 .udpSent,
   .take 1 (.chunk [1, 2, 3] (.pid 2)), .take 1 .closed, .count 2 .udpRcvd, .take 0 (.response ⟨⟨167772161, 50001⟩, 0, [0x20, 0, 0, 0xf0]⟩),
   .stats 1, .stats 1]

/-- The run exists, everything is handled, and the report shows one of two clients, two requests in flight, and the malformed message of the client
that has left. -/
example : ∃ a, App.init.run demo = some a ∧ a.procs.all (fun p => p.toStats.isEmpty) = true ∧ a.active = 1 ∧ a.peak = 2 ∧ a.cumulative = 2 ∧ a.clients = [0] ∧
    a.devices = [2] ∧ a.oldClients .requestsMalformed = 1 ∧ counted App.init 0 demo .requestsIn = 2 ∧ counted App.init 0 demo .responsesSent = 0 ∧
    counted App.init 2 demo .udpSent = 2 := by
  refine ⟨_, rfl, ?_⟩
  decide +kernel

/-- The message of the first client is well formed, that of the second is not. -/
example : WellFormed [10, 0, 0, 1, 0xc3, 0x51, 0, 1, 0x20, 0, 0, 0xf0] ∧ ¬ WellFormed [1, 2, 3] := by
  refine ⟨.one ⟨0, 1, [0x20, 0, 0, 0xf0], rfl, rfl, rfl⟩, fun h => ?_⟩
  have := wellFormed_len h
  simp at this

end Verif.HubApp
