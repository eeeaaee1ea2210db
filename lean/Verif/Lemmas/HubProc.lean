import Verif.Model.HubProc
import Verif.Props.C55World
/-!
# The device client with its mailbox

Lemmas for `Verif/Props/C74.lean`: a run of the two processes is a run of `Verif/Model/HubFirst.lean`.
-/

set_option autoImplicit false
set_option linter.unusedSimpArgs false

namespace Verif.HubProc
open Verif.Hub (Bytes DC DEv Msg World WEv)

variable {τ : Type} {recv : τ → Bytes → Bytes → τ × List Bytes} {absMax : Nat}

/-- What a step is in `Verif/Model/HubFirst.lean`. -/
def Net.does (s : Net τ) : Ev → List WEv
  | .cast pkt pid => [.cast pkt pid]
  | .toTarget i junk => [.toTarget i junk]
  | .timeout => [.timeout]
  | .recv => match pick (wants s.dc s.sending) s.box with
    | some (.cast _ _, _) => [.take]
    | some (.udp i _, _) => [.toHub i]
    | _ => []
  | _ => []

/-- What a run is there: the order in which things happen at the device client and at the target. -/
def Net.seen (recv : τ → Bytes → Bytes → τ × List Bytes) (absMax : Nat) (s : Net τ) : List Ev → List WEv
  | [] => []
  | e :: es => match s.step recv absMax e with
    | some s' => s.does e ++ s'.seen recv absMax es
    | none => []

theorem pick_some {α : Type} {w : α → Bool} : ∀ {l : List α} {x : α} {r : List α}, pick w l = some (x, r) →
    ∃ a b, l = a ++ x :: b ∧ r = a ++ b ∧ w x = true ∧ ∀ y ∈ a, w y = false := by
  intro l
  induction l with
  | nil => intro x r h; cases h
  | cons y l ih =>
    intro x r h
    simp only [pick] at h
    split at h
    · rename_i hw
      simp only [Option.some.injEq, Prod.mk.injEq] at h
      obtain ⟨rfl, rfl⟩ := h
      exact ⟨[], l, rfl, rfl, hw, by simp⟩
    · rename_i hw
      rw [Option.map_eq_some_iff] at h
      obtain ⟨⟨z, r'⟩, hz, he⟩ := h
      simp only [Prod.mk.injEq] at he
      obtain ⟨rfl, rfl⟩ := he
      obtain ⟨a, b, rfl, rfl, h1, h2⟩ := ih hz
      exact ⟨y :: a, b, rfl, rfl, h1, by
        intro v hv
        rcases List.mem_cons.1 hv with rfl | hv
        · simpa using hw
        · exact h2 v hv⟩

theorem pick_none {α : Type} {w : α → Bool} : ∀ {l : List α}, pick w l = none → ∀ y ∈ l, w y = false := by
  intro l
  induction l with
  | nil => intro _ y hy; cases hy
  | cons x l ih =>
    intro h y hy
    simp only [pick] at h
    split at h
    · cases h
    · rename_i hw
      simp only [Option.map_eq_none_iff] at h
      rcases List.mem_cons.1 hy with rfl | hy
      · simpa using hw
      · exact ih h y hy

theorem reqs_append (a b : List Item) : reqs (a ++ b) = reqs a ++ reqs b := by
  induction a with
  | nil => rfl
  | cons x a ih => cases x <;> simp [reqs, ih]

theorem sends_append (a b : List UItem) : sends (a ++ b) = sends a ++ sends b := by
  induction a with
  | nil => rfl
  | cons x a ih => cases x <;> simp [sends, ih]

theorem sends_map (l : List Bytes) : sends (l.map .send) = l := by
  induction l with
  | nil => rfl
  | cons x l ih => simp [sends, ih]

theorem reqs_remain {box : List Item} {inbox : List (Bytes × Nat)} (h : inbox = reqs box ∨ inbox = []) : reqs (remain box inbox) = inbox := by
  unfold remain
  split
  · rename_i h0
    rw [h0]
    clear h h0
    induction box with
    | nil => rfl
    | cons x box ih => cases x <;> simp [reqs, ih]
  · rename_i h0
    rcases h with h | h
    · exact h.symm
    · exact absurd h h0

theorem mem_remain {box : List Item} {inbox : List (Bytes × Nat)} {x : Item} (h : x ∈ remain box inbox) : x ∈ box := by
  unfold remain at h
  split at h
  · exact (List.mem_filter.1 h).1
  · exact h

/-- If a request is matched then every message is. -/
theorem wants_all {d : DC} {sending : Bool} {pkt : Bytes} {pid : Nat} (h : wants d sending (.cast pkt pid) = true) (x : Item) :
    wants d sending x = true := by
  unfold wants at h
  have hcase : d.phase = .idle ∨ (room d = true ∧ sending = true) := by
    simp only at h
    split at h
    · exact .inl (by assumption)
    · exact .inr (by simpa using h)
  rcases hcase with hi | ⟨hr, hs⟩
  · cases x <;> simp [wants, hi]
  · unfold room at hr
    split at hr
    · rename_i hp
      have hm : d.h.mode = .normal := by simp at hr; exact hr.1
      cases x <;> simp [wants, hp, room, hs, Hub.Hub.takes, hm] <;> (simp at hr; exact hr.2)
    · rename_i hp
      cases x <;> simp [wants, hp, room, hs] <;> (simpa using hr)
    · cases hr

/-- The request that is taken is the first message. -/
theorem pick_cast {d : DC} {sending : Bool} {box rest : List Item} {pkt : Bytes} {pid : Nat}
    (h : pick (wants d sending) box = some (.cast pkt pid, rest)) : box = .cast pkt pid :: rest := by
  obtain ⟨a, b, rfl, rfl, h1, h2⟩ := pick_some h
  cases a with
  | nil => rfl
  | cons y a =>
    have := h2 y (by simp)
    rw [wants_all h1 y] at this
    cases this

theorem send13_inbox (d : DC) (pkt : Bytes) (pid : Nat) : (d.send13 pkt pid).1.inbox = d.inbox := by
  unfold DC.send13
  split <;> rfl

theorem forward13_inbox (d : DC) (pkt : Bytes) : (d.forward13 pkt).inbox = d.inbox := by
  unfold DC.forward13
  split <;> rfl

theorem after_inbox (d : DC) (old : Hub.Hub) (code : Nat) : (d.after old code).inbox = d.inbox ∨ (d.after old code).inbox = [] := by
  unfold DC.after
  split
  · exact .inr rfl
  · exact .inl rfl

theorem take_inbox {d : DC} {x : Bytes × Nat} {l : List (Bytes × Nat)} (hi : d.inbox = x :: l) {r : DC × List Bytes} (h : d.take = some r) :
    r.1.inbox = l := by
  unfold DC.take at h
  rw [hi] at h
  simp only at h
  split at h
  · split at h <;> (simp only [Option.some.injEq] at h; subst h; rfl)
  · split at h
    · simp only [Option.some.injEq] at h; subst h; rfl
    · cases h
  · split at h
    · simp only [Option.some.injEq] at h; subst h; rw [send13_inbox]
    · cases h
  · cases h

theorem udp_inbox {d : DC} {p : Bytes} {r : DC × List Bytes} (h : d.udp absMax p = some r) : r.1.inbox = d.inbox ∨ r.1.inbox = [] := by
  unfold DC.udp at h
  split at h
  · split at h
    · split at h
      · simp only [Option.some.injEq] at h; subst h; left; rw [send13_inbox]
      · split at h <;> (simp only [Option.some.injEq] at h; subst h)
        · exact .inl rfl
        · exact .inr rfl
        · exact .inl rfl
    · cases h
  · split at h
    · simp only [Option.some.injEq] at h; subst h; exact after_inbox _ _ _
    · cases h
  · simp only [Option.some.injEq] at h; subst h; left; exact forward13_inbox _ _
  · cases h

theorem timeout_inbox {d : DC} {r : DC × List Bytes} (h : d.timeout = some r) : r.1.inbox = d.inbox ∨ r.1.inbox = [] := by
  unfold DC.timeout at h
  split at h
  · split at h <;> (simp only [Option.some.injEq] at h; subst h)
    · exact .inr rfl
    · exact .inl rfl
  · split at h
    · cases h
    · split at h
      · cases h
      · simp only [Option.some.injEq] at h; subst h; exact after_inbox _ _ _
  · split at h
    · split at h
      · simp only [Option.some.injEq] at h; subst h; exact .inl rfl
      · cases h
    · split at h
      · simp only [Option.some.injEq] at h; subst h; exact .inl rfl
      · split at h <;> (simp only [Option.some.injEq] at h; subst h)
        · exact .inr rfl
        · exact .inl rfl
  · cases h

theorem newSent_self (d : DC) : Hub.newSent d d = [] := by
  unfold Hub.newSent
  rcases d.flight with _ | f <;> simp

/-- The two models agree. -/
structure Sim (s : Net τ) (w : World τ) : Prop where
  dc : w.dc = s.view
  tgt : w.tgt = s.tgt
  toT : w.toT.map (·.2) = s.toT ++ sends s.ubox
  toH : w.toH.map (·.2) = s.toH
  items : ∀ i p, .udp i p ∈ s.box → s.toH[i]? = some p
  uitems : ∀ i p, .udp i p ∈ s.ubox → s.toH[i]? = some p

theorem Sim.init (t : τ) : Sim (Net.init t) (World.init t) :=
  ⟨rfl, rfl, rfl, rfl, (by intro i p h; cases h), (by intro i p h; cases h)⟩

theorem view_gone (s : Net τ) : s.view.gone = s.dc.gone := rfl

/-- A step of the device client. -/
theorem Sim.proc {s s' : Net τ} {w : World τ} (h : Sim s w) {e : DEv} {rest : List Item} (hs : s.proc absMax e rest = some s')
    (hrest : ∀ x ∈ rest, x ∈ s.box)
    (hin : ∀ r, s.view.step absMax e = some r → r.1.inbox = reqs rest ∨ r.1.inbox = []) :
    ∃ w', w.proc absMax e = some w' ∧ Sim s' w' := by
  unfold Net.proc at hs
  split at hs
  · rename_i r hr
    simp only [Option.some.injEq] at hs
    subst hs
    refine ⟨{ w with dc := r.1, sent := w.sent ++ Hub.newSent w.dc r.1,
                     toT := w.toT ++ r.2.map fun b => ((w.sent ++ Hub.newSent w.dc r.1).length, b) }, ?_, ?_⟩
    · unfold World.proc
      rw [h.dc, hr]
    · refine ⟨?_, h.tgt, ?_, h.toH, ?_, ?_⟩
      · simp only [Net.view]
        rw [reqs_remain (hin r hr)]
      · simp only [List.map_append, List.map_map, Function.comp_def, List.map_id', sends_append, sends_map, h.toT, List.append_assoc]
      · intro i p hi
        exact h.items i p (hrest _ (mem_remain hi))
      · intro i p hi
        rcases List.mem_append.1 hi with hi | hi
        · exact h.uitems i p hi
        · simp at hi
  · cases hs

theorem Sim.pass {s : Net τ} {w : World τ} (h : Sim s w) {x : UItem} {rest : List UItem} (hx : x ∈ s.ubox) (hr : ∀ y ∈ rest, y ∈ s.ubox)
    (hsends : sends s.ubox = sends [x] ++ sends rest) : Sim (s.pass x rest) w := by
  unfold Net.pass
  cases x with
  | send b =>
    refine ⟨h.dc, h.tgt, ?_, h.toH, h.items, fun i p hi => h.uitems i p (hr _ hi)⟩
    rw [h.toT, hsends]
    simp [sends]
  | udp i p =>
    refine ⟨?_, h.tgt, ?_, h.toH, ?_, fun i p hi => h.uitems i p (hr _ hi)⟩
    · rw [h.dc]; simp [Net.view, reqs_append, reqs]
    · rw [h.toT, hsends]; simp [sends]
    · intro j q hj
      rcases List.mem_append.1 hj with hj | hj
      · exact h.items j q hj
      · simp only [List.mem_singleton, Item.udp.injEq] at hj
        obtain ⟨rfl, rfl⟩ := hj
        exact h.uitems _ _ hx
  | stranger =>
    refine ⟨?_, h.tgt, ?_, h.toH, ?_, fun i p hi => h.uitems i p (hr _ hi)⟩
    · rw [h.dc]; simp [Net.view, reqs_append, reqs]
    · rw [h.toT, hsends]; simp [sends]
    · intro j q hj
      rcases List.mem_append.1 hj with hj | hj
      · exact h.items j q hj
      · simp at hj

theorem view_take {s : Net τ} {pkt : Bytes} {pid : Nat} {rest : List Item} (hb : s.box = .cast pkt pid :: rest) {r : DC × List Bytes}
    (hr : s.view.step absMax .take = some r) : r.1.inbox = reqs rest := by
  simp only [DC.step] at hr
  split at hr
  · cases hr
  · exact take_inbox (d := s.view) (x := (pkt, pid)) (by simp [Net.view, hb, reqs]) hr

theorem view_udp {s : Net τ} {p : Bytes} {r : DC × List Bytes}
    (hr : s.view.step absMax (.udp p) = some r) : r.1.inbox = reqs s.box ∨ r.1.inbox = [] := by
  simp only [DC.step] at hr
  split at hr
  · cases hr
  · exact udp_inbox hr

theorem view_timeout {s : Net τ} {r : DC × List Bytes}
    (hr : s.view.step absMax .timeout = some r) : r.1.inbox = reqs s.box ∨ r.1.inbox = [] := by
  simp only [DC.step] at hr
  split at hr
  · cases hr
  · exact timeout_inbox hr

theorem run_one {w w' : World τ} {e : WEv} (h : w.step recv absMax e = some w') : w.run recv absMax [e] = some w' := by
  simp [World.run, h]

/-- One step. -/
theorem Sim.step {s s' : Net τ} {w : World τ} (h : Sim s w) (h0 : s.stopped = false) {e : Ev} (hs : s.step recv absMax e = some s')
    (h1 : s'.stopped = false) : ∃ w', w.run recv absMax (s.does e) = some w' ∧ Sim s' w' := by
  cases e with
  | cast pkt pid =>
    simp only [Net.step, Option.some.injEq, Net.gone, h0, Bool.false_or] at hs
    subst hs
    by_cases hg : s.dc.gone = true
    · refine ⟨w, ?_, ?_⟩
      · apply run_one
        simp only [World.step, World.proc, DC.step, h.dc, view_gone, hg, if_true, newSent_self, List.append_nil, List.map_nil]
        rw [← h.dc]
      · simpa [hg] using h
    · rw [if_neg hg]
      refine ⟨{ w with dc := { s.view with inbox := reqs s.box ++ [(pkt, pid)] } }, ?_, ?_⟩
      · apply run_one
        simp only [World.step, World.proc, DC.step, h.dc, view_gone, hg, if_false]
        have : Hub.newSent s.view { s.view with inbox := s.view.inbox ++ [(pkt, pid)] } = [] := newSent_self _
        simp only [Bool.false_eq_true, if_false, this, List.append_nil, List.map_nil]
        rfl
      · refine ⟨?_, h.tgt, h.toT, h.toH, ?_, h.uitems⟩
        · simp [Net.view, reqs_append, reqs]
        · intro i p hi
          rcases List.mem_append.1 hi with hi | hi
          · exact h.items i p hi
          · simp at hi
  | stranger =>
    simp only [Net.step, Option.some.injEq] at hs
    subst hs
    refine ⟨w, rfl, ⟨h.dc, h.tgt, ?_, h.toH, h.items, ?_⟩⟩
    · rw [h.toT]; simp [sends_append, sends]
    · intro i p hi
      rcases List.mem_append.1 hi with hi | hi
      · exact h.uitems i p hi
      · simp at hi
  | toTarget i junk =>
    simp only [Net.step] at hs
    split at hs
    · cases hs
    · rename_i b hb
      split at hs
      · rename_i hj
        simp only [Option.some.injEq] at hs
        subst hs
        have hw : (w.toT.map (·.2))[i]? = some b := by
          rw [h.toT, List.getElem?_append_left (List.getElem?_eq_some_iff.1 hb).1, hb]
        rw [List.getElem?_map, Option.map_eq_some_iff] at hw
        obtain ⟨d, hd, rfl⟩ := hw
        refine ⟨{ w with tgt := (recv w.tgt d.2 junk).1, toH := w.toH ++ (recv w.tgt d.2 junk).2.map fun b => (w.sent.length, b) }, ?_, ?_⟩
        · apply run_one
          simp only [World.step, hd, if_pos hj]
        · refine ⟨h.dc, by simp [h.tgt], h.toT, ?_, ?_, ?_⟩
          · simp [h.toH, h.tgt, Function.comp_def]
          · intro i p hi
            have := h.items i p hi
            simp only
            rw [List.getElem?_append_left (List.getElem?_eq_some_iff.1 this).1, this]
          · intro i p hi
            have := h.uitems i p hi
            simp only
            rw [List.getElem?_append_left (List.getElem?_eq_some_iff.1 this).1, this]
      · cases hs
  | toHub i =>
    simp only [Net.step] at hs
    split at hs
    · cases hs
    · rename_i p hp
      simp only [Option.some.injEq] at hs
      subst hs
      refine ⟨w, rfl, ⟨h.dc, h.tgt, ?_, h.toH, h.items, ?_⟩⟩
      · rw [h.toT]; simp [sends_append, sends]
      · intro j q hj
        rcases List.mem_append.1 hj with hj | hj
        · exact h.uitems j q hj
        · simp only [List.mem_singleton, UItem.udp.injEq] at hj
          obtain ⟨rfl, rfl⟩ := hj
          exact hp
  | fwd =>
    simp only [Net.step] at hs
    split at hs
    · cases hs
    · rename_i x rest hp
      simp only [Option.some.injEq] at hs
      subst hs
      obtain ⟨a, b, hab, rfl, hx, ha⟩ := pick_some hp
      refine ⟨w, rfl, h.pass (by rw [hab]; simp) (by rw [hab]; intro y hy; simp at hy ⊢; rcases hy with hy | hy <;> simp [hy]) ?_⟩
      rw [hab]
      cases x with
      | udp i p => simp [sends_append, sends]
      | send b => simp at hx
      | stranger => simp at hx
  | next =>
    simp only [Net.step] at hs
    split at hs
    · cases hs
    · rename_i x rest hp
      simp only [Option.some.injEq] at hs
      subst hs
      refine ⟨w, rfl, h.pass (by rw [hp]; simp) (by rw [hp]; intro y hy; simp [hy]) ?_⟩
      rw [hp, ← sends_append]; rfl
  | sendFails =>
    simp only [Net.step] at hs
    split at hs
    · simp only [Option.some.injEq] at hs
      subst hs
      cases h1
    · cases hs
  | recv =>
    simp only [Net.step] at hs
    split at hs
    · cases hs
    · unfold Net.recv at hs
      simp only [Net.does]
      split at hs
      · cases hs
      · rename_i pkt pid rest hp
        rw [hp]
        have hb := pick_cast hp
        obtain ⟨w', h1, h2⟩ := h.proc hs (by rw [hb]; intro x hx; simp [hx]) (fun r hr => .inl (view_take hb hr))
        exact ⟨w', run_one h1, h2⟩
      · rename_i i p rest hp
        rw [hp]
        split at hs
        · simp only [Option.some.injEq] at hs; subst hs; cases h1
        · obtain ⟨a, b, hab, rfl, _, _⟩ := pick_some hp
          obtain ⟨w', h1, h2⟩ := h.proc hs (by rw [hab]; intro y hy; simp at hy ⊢; rcases hy with hy | hy <;> simp [hy])
            (fun r hr => by have := view_udp hr; rw [hab] at this; simpa [reqs_append, reqs] using this)
          refine ⟨w', run_one ?_, h2⟩
          have hi := h.items i p (by rw [hab]; simp)
          rw [← h.toH, List.getElem?_map, Option.map_eq_some_iff] at hi
          obtain ⟨d, hd, rfl⟩ := hi
          simp only [World.step, hd]
          exact h1
      · rename_i rest hp
        rw [hp]
        split at hs
        · simp only [Option.some.injEq] at hs; subst hs; cases h1
        · simp only [Option.some.injEq] at hs
          subst hs
          obtain ⟨a, b, hab, rfl, _, _⟩ := pick_some hp
          refine ⟨w, rfl, ⟨?_, h.tgt, h.toT, h.toH, ?_, h.uitems⟩⟩
          · rw [h.dc]; simp [Net.view, hab, reqs_append, reqs]
          · intro i p hi
            refine h.items i p ?_
            rw [hab]
            simp at hi ⊢
            rcases hi with hi | hi <;> simp [hi]
  | turn =>
    simp only [Net.step] at hs
    split at hs
    · cases hs
    · split at hs
      · simp only [Option.some.injEq] at hs
        subst hs
        exact ⟨w, rfl, ⟨h.dc, h.tgt, h.toT, h.toH, h.items, h.uitems⟩⟩
      · cases hs
  | timeout =>
    simp only [Net.step] at hs
    split at hs
    · cases hs
    · split at hs
      · cases hs
      · obtain ⟨w', h1, h2⟩ := h.proc hs (fun x hx => hx) (fun r hr => view_timeout hr)
        exact ⟨w', run_one h1, h2⟩

theorem run_two {w w1 w2 : World τ} : ∀ {a b : List WEv}, w.run recv absMax a = some w1 → w1.run recv absMax b = some w2 →
    w.run recv absMax (a ++ b) = some w2 := by
  intro a
  induction a generalizing w with
  | nil => intro b h1 h2; cases h1; exact h2
  | cons e a ih =>
    intro b h1 h2
    simp only [World.run, List.cons_append] at h1 ⊢
    split at h1
    · rename_i s hs
      exact ih h1 h2
    · cases h1

theorem proc_stopped {s s' : Net τ} {e : DEv} {rest : List Item} (h : s.proc absMax e rest = some s') : s'.stopped = s.stopped := by
  unfold Net.proc at h
  split at h
  · simp only [Option.some.injEq] at h; subst h; rfl
  · cases h

/-- The end by `handle_info` or by the UDP process is for ever. -/
theorem stopped_step {s s' : Net τ} {e : Ev} (hs : s.step recv absMax e = some s') (h : s.stopped = true) : s'.stopped = true := by
  cases e <;> simp only [Net.step, Net.gone, h, Bool.true_or, if_true, Option.some.injEq] at hs
  · subst hs; exact h
  · subst hs; rfl
  · split at hs
    · cases hs
    · split at hs
      · cases hs; rfl
      · cases hs
  · split at hs <;> cases hs
    rfl
  · split at hs <;> cases hs
    unfold Net.pass
    split <;> exact h
  · split at hs <;> cases hs
    unfold Net.pass
    split <;> exact h
  · split at hs <;> cases hs
    rfl
  all_goals cases hs

theorem stopped_run {s' : Net τ} : ∀ {es : List Ev} {s : Net τ}, s.run recv absMax es = some s' → s'.stopped = false → s.stopped = false := by
  intro es
  induction es with
  | nil => intro s h h'; cases h; exact h'
  | cons e es ih =>
    intro s h h'
    simp only [Net.run] at h
    split at h
    · rename_i s1 hs
      have := ih h h'
      cases h0 : s.stopped with
      | false => rfl
      | true => rw [stopped_step hs h0] at this; cases this
    · cases h

theorem Sim.run {s' : Net τ} : ∀ {es : List Ev} {s : Net τ} {w : World τ}, Sim s w → s.run recv absMax es = some s' → s'.stopped = false →
    ∃ w', w.run recv absMax (s.seen recv absMax es) = some w' ∧ Sim s' w' := by
  intro es
  induction es with
  | nil => intro s w h hr _; cases hr; exact ⟨w, rfl, h⟩
  | cons e es ih =>
    intro s w h hr h'
    have h0 := stopped_run hr h'
    simp only [Net.run, Net.seen] at hr ⊢
    split at hr
    · rename_i s1 hs
      obtain ⟨w1, hw1, hsim⟩ := h.step h0 hs (stopped_run hr h')
      obtain ⟨w2, hw2, hsim2⟩ := ih hsim hr h'
      exact ⟨w2, by rw [hs]; exact run_two hw1 hw2, hsim2⟩
    · cases hr

/-! ## Nothing before the first request -/

/-- Before the first request, the first message in the mailbox is a request. -/
def Begun (s : Net τ) : Prop := s.stopped = false ∧ (s.dc.phase = .idle → ∃ pkt pid r, s.box = .cast pkt pid :: r)

theorem take_phase {d : DC} {r : DC × List Bytes} (h : d.take = some r) : r.1.phase ≠ .idle := by
  unfold DC.take at h
  split at h
  · cases h
  · split at h
    · split at h <;> (simp only [Option.some.injEq] at h; subst h; simp)
    · split at h
      · rename_i hp _
        simp only [Option.some.injEq] at h; subst h; simp [hp]
      · cases h
    · split at h
      · rename_i hp _
        simp only [Option.some.injEq] at h; subst h
        unfold DC.send13
        split <;> simp [hp]
      · cases h
    · cases h

theorem after_phase (d : DC) (old : Hub.Hub) (code : Nat) : (d.after old code).phase = d.phase := by
  unfold DC.after
  split <;> rfl

theorem udp_phase {d : DC} {p : Bytes} {r : DC × List Bytes} (h : d.udp absMax p = some r) : r.1.phase ≠ .idle := by
  unfold DC.udp at h
  split at h
  · split at h
    · split at h
      · simp only [Option.some.injEq] at h; subst h
        unfold DC.send13
        split <;> simp
      · split at h <;> (simp only [Option.some.injEq] at h; subst h; simp [DC.refuse, DC.drain])
    · cases h
  · split at h
    · rename_i hp _
      simp only [Option.some.injEq] at h; subst h
      rw [after_phase]
      simp [hp]
    · cases h
  · simp only [Option.some.injEq] at h; subst h; simp
  · cases h

theorem timeout_phase {d : DC} {r : DC × List Bytes} (h : d.timeout = some r) : r.1.phase ≠ .idle := by
  unfold DC.timeout at h
  split at h
  · split at h <;> (simp only [Option.some.injEq] at h; subst h; simp [DC.refuse, DC.drain])
  · rename_i hp
    split at h
    · cases h
    · split at h
      · cases h
      · simp only [Option.some.injEq] at h; subst h
        rw [after_phase]
        simp [hp]
  · split at h
    · split at h
      · simp only [Option.some.injEq] at h; subst h; simp
      · cases h
    · split at h
      · simp only [Option.some.injEq] at h; subst h; simp
      · split at h <;> (simp only [Option.some.injEq] at h; subst h; simp [DC.drain])
  · cases h

theorem proc_phase {s s' : Net τ} {e : DEv} {rest : List Item} (h : s.proc absMax e rest = some s') (he : ∀ pkt pid, e ≠ .cast pkt pid) :
    s'.dc.phase ≠ .idle := by
  unfold Net.proc at h
  split at h
  · rename_i r hr
    simp only [Option.some.injEq] at h
    subst h
    simp only
    cases e with
    | cast pkt pid => exact absurd rfl (he pkt pid)
    | take => simp only [DC.step] at hr; split at hr; cases hr; exact take_phase hr
    | udp p => simp only [DC.step] at hr; split at hr; cases hr; exact udp_phase hr
    | timeout => simp only [DC.step] at hr; split at hr; cases hr; exact timeout_phase hr
  · cases h

theorem Begun.of_proc {s s' : Net τ} {e : DEv} {rest : List Item} (h0 : s.stopped = false) (h : s.proc absMax e rest = some s')
    (he : ∀ pkt pid, e ≠ .cast pkt pid) : Begun s' :=
  ⟨by rw [proc_stopped h, h0], fun hp => absurd hp (proc_phase h he)⟩

theorem Begun.pass {s : Net τ} (h : Begun s) (x : UItem) (rest : List UItem) : Begun (s.pass x rest) := by
  unfold Net.pass
  split
  · exact ⟨h.1, h.2⟩
  · refine ⟨h.1, fun hp => ?_⟩
    obtain ⟨pkt, pid, r, hb⟩ := h.2 hp
    exact ⟨pkt, pid, _, by simp only; rw [hb]; rfl⟩
  · refine ⟨h.1, fun hp => ?_⟩
    obtain ⟨pkt, pid, r, hb⟩ := h.2 hp
    exact ⟨pkt, pid, _, by simp only; rw [hb]; rfl⟩

theorem Begun.step {s s' : Net τ} (h : Begun s) {e : Ev} (he : e ≠ .sendFails) (hs : s.step recv absMax e = some s') : Begun s' := by
  have h0 := h.1
  cases e with
  | cast pkt pid =>
    simp only [Net.step, Option.some.injEq] at hs
    subst hs
    split
    · exact h
    · refine ⟨h.1, fun hp => ?_⟩
      obtain ⟨pkt, pid, r, hb⟩ := h.2 hp
      exact ⟨pkt, pid, _, by simp only; rw [hb]; rfl⟩
  | stranger => simp only [Net.step, Option.some.injEq] at hs; subst hs; exact ⟨h.1, h.2⟩
  | toTarget i junk =>
    simp only [Net.step] at hs
    split at hs
    · cases hs
    · split at hs
      · cases hs; exact ⟨h.1, h.2⟩
      · cases hs
  | toHub i =>
    simp only [Net.step] at hs
    split at hs
    · cases hs
    · cases hs; exact ⟨h.1, h.2⟩
  | fwd =>
    simp only [Net.step] at hs
    split at hs
    · cases hs
    · simp only [Option.some.injEq] at hs; subst hs; exact h.pass _ _
  | next =>
    simp only [Net.step] at hs
    split at hs
    · cases hs
    · simp only [Option.some.injEq] at hs; subst hs; exact h.pass _ _
  | sendFails => exact absurd rfl he
  | recv =>
    simp only [Net.step] at hs
    split at hs
    · cases hs
    · by_cases hp : s.dc.phase = .idle
      · obtain ⟨pkt, pid, r, hb⟩ := h.2 hp
        have hw : wants s.dc s.sending (.cast pkt pid) = true := by simp [wants, hp]
        simp only [Net.recv, hb, pick, hw, if_true] at hs
        exact Begun.of_proc h0 hs (by simp)
      · unfold Net.recv at hs
        simp only [hp, if_false] at hs
        split at hs
        · cases hs
        · exact Begun.of_proc h0 hs (by simp)
        · exact Begun.of_proc h0 hs (by simp)
        · simp only [Option.some.injEq] at hs; subst hs; exact ⟨h0, fun h => absurd h hp⟩
  | turn =>
    simp only [Net.step] at hs
    split at hs
    · cases hs
    · split at hs
      · simp only [Option.some.injEq] at hs; subst hs; exact ⟨h.1, h.2⟩
      · cases hs
  | timeout =>
    simp only [Net.step] at hs
    split at hs
    · cases hs
    · split at hs
      · cases hs
      · exact Begun.of_proc h0 hs (by simp)

theorem Begun.run {s' : Net τ} : ∀ {es : List Ev} {s : Net τ}, Begun s → .sendFails ∉ es → s.run recv absMax es = some s' → Begun s' := by
  intro es
  induction es with
  | nil => intro s h _ hr; cases hr; exact h
  | cons e es ih =>
    intro s h he hr
    simp only [Net.run] at hr
    split at hr
    · rename_i s1 hs
      exact ih (h.step (fun h => he (by simp [h])) hs) (fun h => he (by simp [h])) hr
    · cases hr

/-- At the start, only a request or a datagram from elsewhere can come. -/
theorem first_step {t : τ} {s' : Net τ} {e : Ev} (hs : (Net.init t).step recv absMax e = some s') : (∃ pkt pid, e = .cast pkt pid) ∨ e = .stranger := by
  cases e <;> simp [Net.step, Net.init, Net.gone, DC.gone, DC.init, Net.recv, pick, room, Net.proc, Net.view, DC.step, DC.timeout] at hs ⊢

theorem begun_first {t : τ} {pkt : Bytes} {pid : Nat} {s' : Net τ} (hs : (Net.init t).step recv absMax (.cast pkt pid) = some s') : Begun s' := by
  simp [Net.step, Net.init, Net.gone, DC.gone, DC.init] at hs
  subst hs
  exact ⟨rfl, fun _ => ⟨pkt, pid, [], rfl⟩⟩

/-! ## The device client alone -/

/-- An event at the device client. -/
def devs (w : World τ) : WEv → List DEv
  | .cast pkt pid => [.cast pkt pid]
  | .take => [.take]
  | .toTarget _ _ => []
  | .toHub i => match w.toH[i]? with
    | some d => [.udp d.2]
    | none => []
  | .timeout => [.timeout]

/-- The client of a request that arrives. -/
def pidW : WEv → List Nat
  | .cast _ pid => [pid]
  | _ => []

/-- The clients of the requests that arrive while there is a device client. -/
def heardW (recv : τ → Bytes → Bytes → τ × List Bytes) (absMax : Nat) (w : World τ) : List WEv → List Nat
  | [] => []
  | e :: es => (if w.dc.gone then [] else pidW e) ++
    match w.step recv absMax e with
    | some w' => heardW recv absMax w' es
    | none => []

theorem proc_dc {w w' : World τ} {e : DEv} (h : w.proc absMax e = some w') : ∃ out, w.dc.step absMax e = some (w'.dc, out) := by
  unfold World.proc at h
  split at h
  · rename_i r hr
    simp only [Option.some.injEq] at h
    subst h
    exact ⟨r.2, hr⟩
  · cases h

theorem dc_cons {d d1 d2 : DC} {e : DEv} {out : List Bytes} (hs : d.step absMax e = some (d1, out)) {des : List DEv} {out' : List Bytes}
    (hr : d1.run absMax des = some (d2, out')) :
    d.run absMax (e :: des) = some (d2, out ++ out') ∧
      Hub.heard absMax d (e :: des) = (if d.gone then [] else e.pids) ++ Hub.heard absMax d1 des := by
  simp [DC.run, hs, hr, Hub.heard]

/-- The device client does not see the rest. -/
theorem world_dc {w' : World τ} : ∀ {es : List WEv} {w : World τ}, w.run recv absMax es = some w' →
    ∃ des out, w.dc.run absMax des = some (w'.dc, out) ∧ Hub.heard absMax w.dc des = heardW recv absMax w es := by
  intro es
  induction es with
  | nil => intro w h; cases h; exact ⟨[], [], rfl, rfl⟩
  | cons e es ih =>
    intro w h
    simp only [World.run] at h
    split at h
    · rename_i w1 hs
      obtain ⟨des, out, h1, h2⟩ := ih h
      simp only [heardW, hs]
      have key : ∀ (de : DEv), (w.proc absMax de = some w1) → (de.pids = pidW e) → ∃ des out, w.dc.run absMax des = some (w'.dc, out) ∧ Hub.heard absMax w.dc des =
            (if w.dc.gone = true then [] else pidW e) ++ heardW recv absMax w1 es := by
        intro de hde hp
        obtain ⟨o, ho⟩ := proc_dc hde
        obtain ⟨g1, g2⟩ := dc_cons ho h1
        exact ⟨_, _, g1, by rw [g2, h2, hp]⟩
      cases e with
      | cast pkt pid => exact key (.cast pkt pid) hs rfl
      | take => exact key .take hs rfl
      | toTarget i junk =>
        simp only [World.step] at hs
        split at hs
        · cases hs
        · split at hs
          · simp only [Option.some.injEq] at hs
            subst hs
            exact ⟨des, out, h1, by rw [h2]; simp [pidW]⟩
          · cases hs
      | toHub i =>
        simp only [World.step] at hs
        split at hs
        · cases hs
        · rename_i d hd
          exact key (.udp d.2) hs rfl
      | timeout => exact key .timeout hs rfl
    · cases h

/-- The clients of the requests that arrive while there is a device client, in order. -/
def Net.heard (recv : τ → Bytes → Bytes → τ × List Bytes) (absMax : Nat) (s : Net τ) : List Ev → List Nat
  | [] => []
  | e :: es => (if s.gone then [] else match e with
      | .cast _ pid => [pid]
      | _ => []) ++
    match s.step recv absMax e with
    | some s' => s'.heard recv absMax es
    | none => []

theorem heardW_append {w w1 : World τ} : ∀ {a b : List WEv}, w.run recv absMax a = some w1 →
    heardW recv absMax w (a ++ b) = heardW recv absMax w a ++ heardW recv absMax w1 b := by
  intro a
  induction a generalizing w with
  | nil => intro b h; cases h; rfl
  | cons e a ih =>
    intro b h
    simp only [World.run] at h
    split at h
    · rename_i w2 hs
      simp only [List.cons_append, heardW, hs, List.append_assoc]
      rw [ih h]
    · cases h

theorem does_heard {s s' : Net τ} {w w' : World τ} (h : Sim s w) (h0 : s.stopped = false) {e : Ev} (hs : s.step recv absMax e = some s')
    (hw : w.run recv absMax (s.does e) = some w') : heardW recv absMax w (s.does e) = if s.gone then [] else match e with
      | .cast _ pid => [pid]
      | _ => [] := by
  have hg : w.dc.gone = s.gone := by rw [h.dc, view_gone, Net.gone, h0, Bool.false_or]
  cases e <;> simp only [Net.does, heardW, World.run] at hw ⊢
  case cast pkt pid =>
    split at hw
    · rename_i w1 hw1
      simp only [hw1, hg, pidW, List.append_nil]
    · cases hw
  case toTarget i junk =>
    split at hw
    · rename_i w1 hw1
      simp only [hw1, hg, pidW, List.append_nil]
    · cases hw
  case timeout =>
    split at hw
    · rename_i w1 hw1
      simp only [hw1, hg, pidW, List.append_nil]
    · cases hw
  case recv =>
    split at hw
    · simp only [heardW, pidW, ite_self, List.nil_append]
      split <;> rfl
    · simp only [heardW, pidW, ite_self, List.nil_append]
      split <;> rfl
    · simp [heardW]
  all_goals simp

theorem Sim.heard {s' : Net τ} : ∀ {es : List Ev} {s : Net τ} {w : World τ}, Sim s w → s.run recv absMax es = some s' → s'.stopped = false →
    heardW recv absMax w (s.seen recv absMax es) = s.heard recv absMax es := by
  intro es
  induction es with
  | nil => intro s w _ _ _; rfl
  | cons e es ih =>
    intro s w h hr h'
    have h0 := stopped_run hr h'
    simp only [Net.run, Net.seen, Net.heard] at hr ⊢
    split at hr
    · rename_i s1 hs
      obtain ⟨w1, hw1, hsim⟩ := h.step h0 hs (stopped_run hr h')
      simp only [hs]
      rw [heardW_append hw1, ih hsim hr h', does_heard h h0 hs hw1]
    · cases hr

theorem seen_casts {s' : Net τ} : ∀ {es : List Ev} {s : Net τ}, s.run recv absMax es = some s' →
    Hub.casts (s.seen recv absMax es) = es.filterMap fun e => match e with
      | .cast pkt pid => some (pkt, pid)
      | _ => none := by
  intro es
  induction es with
  | nil => intro s _; rfl
  | cons e es ih =>
    intro s hr
    simp only [Net.run, Net.seen] at hr ⊢
    split at hr
    · rename_i s1 hs
      simp only [hs]
      have := ih hr
      cases e with
      | recv =>
        simp only [Net.does, List.filterMap_cons]
        split <;> simpa [Hub.casts] using this
      | _ => simp only [Net.does, List.filterMap_cons]; simpa [Hub.casts] using this
    · cases hr

end Verif.HubProc
