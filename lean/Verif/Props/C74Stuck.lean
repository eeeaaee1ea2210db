import Verif.Props.C74
/-!
# C74: the device client does not get stuck

Whatever is in its mailbox: see `/verif/properties.jsonl` and `DESIGN.md`.
-/

set_option autoImplicit false

namespace Verif.HubProc
open Hub
/-- Recovery with IPbus 1.3 happens with a packet in flight. -/
def InFlight (d : DC) : Prop := ∀ k, d.phase = .one (some k) → d.flight ≠ none

theorem InFlight.send13 {d : DC} (h : d.phase = .one none) (pkt : Bytes) (pid : Nat) : InFlight (d.send13 pkt pid).1 := by
  intro k hk
  unfold DC.send13 at hk
  split at hk <;> simp [h] at hk

theorem InFlight.step {absMax : Nat} {d d' : DC} {e : DEv} {out : List Bytes} (h : InFlight d) (hs : d.step absMax e = some (d', out)) : InFlight d' := by
  intro k hk
  cases e with
  | cast pkt pid =>
    simp only [DC.step] at hs
    split at hs <;> (cases hs; exact h k hk)
  | take =>
    simp only [DC.step] at hs
    split at hs
    · cases hs
    · unfold DC.take at hs
      split at hs
      · cases hs
      · split at hs
        · split at hs <;> (cases hs; cases hk)
        · rename_i hp
          split at hs
          · cases hs; exact h k hk
          · cases hs
        · rename_i hp
          split at hs
          · have e := Option.some.inj hs
            have e1 : d' = _ := (congrArg Prod.fst e).symm
            rw [e1] at hk ⊢
            exact InFlight.send13 (by exact hp) _ _ k hk
          · cases hs
        · cases hs
  | udp p =>
    simp only [DC.step] at hs
    split at hs
    · cases hs
    · unfold DC.udp at hs
      split at hs
      · split at hs
        · split at hs
          · have e1 : d' = _ := (congrArg Prod.fst (Option.some.inj hs)).symm
            rw [e1] at hk ⊢
            exact InFlight.send13 rfl _ _ k hk
          · split at hs
            · cases hs; cases hk
            · cases hs; cases hk
            · cases hs; cases hk
        · cases hs
      · rename_i hp
        split at hs
        · cases hs
          unfold DC.after at hk
          split at hk <;> (simp only [DC.drain, hp] at hk; cases hk)
        · cases hs
      · cases hs; cases hk
      · cases hs
  | timeout =>
    simp only [DC.step] at hs
    split at hs
    · cases hs
    · unfold DC.timeout at hs
      split at hs
      · split at hs <;> (cases hs; cases hk)
      · rename_i hp
        split at hs
        · cases hs
        · split at hs
          · cases hs
          · cases hs
            unfold DC.after at hk
            split at hk <;> (simp only [DC.drain, hp] at hk; cases hk)
      · split at hs
        · split at hs
          · cases hs; cases hk
          · cases hs
        · rename_i f hf
          split at hs
          · cases hs; simp [hf]
          · split at hs
            · cases hs; cases hk
            · cases hs; simp [hf]
      · cases hs

theorem InFlight.proc {τ : Type} {absMax : Nat} {s s' : Net τ} {e : DEv} {rest : List Item} (h : InFlight s.dc) (hs : s.proc absMax e rest = some s') : InFlight s'.dc := by
  unfold Net.proc at hs
  split at hs
  · rename_i r hr
    cases hs
    exact InFlight.step (d := s.view) (d' := r.1) (out := r.2) h hr
  · cases hs

theorem InFlight.net {τ : Type} {recv : τ → Bytes → Bytes → τ × List Bytes} {absMax : Nat} {s s' : Net τ} {e : Ev} (h : InFlight s.dc) (hs : s.step recv absMax e = some s') : InFlight s'.dc := by
  cases e <;> simp only [Net.step] at hs
  case cast => split at hs <;> (cases hs; exact h)
  case stranger => cases hs; exact h
  case toTarget =>
    split at hs
    · cases hs
    · split at hs <;> cases hs; exact h
  case toHub => split at hs <;> cases hs; exact h
  case fwd =>
    split at hs
    · cases hs
    · rename_i x rest _
      cases hs
      cases x <;> exact h
  case next =>
    split at hs
    · cases hs
    · rename_i x rest _
      cases hs
      cases x <;> exact h
  case sendFails => split at hs <;> cases hs; exact h
  case recv =>
    split at hs
    · cases hs
    · unfold Net.recv at hs
      split at hs
      · cases hs
      · exact h.proc hs
      · split at hs
        · cases hs; exact h
        · exact h.proc hs
      · split at hs <;> (cases hs; exact h)
  case turn =>
    split at hs
    · cases hs
    · split at hs <;> cases hs; exact h
  case timeout =>
    split at hs
    · cases hs
    · split at hs
      · cases hs
      · exact h.proc hs

theorem InFlight.run {τ : Type} {recv : τ → Bytes → Bytes → τ × List Bytes} {absMax : Nat} {s' : Net τ} : ∀ {es : List Ev} {s : Net τ}, InFlight s.dc → s.run recv absMax es = some s' → InFlight s'.dc := by
  intro es
  induction es with
  | nil => intro s h hr; cases hr; exact h
  | cons e es ih =>
    intro s h hr
    simp only [Net.run] at hr
    split at hr
    · rename_i s1 h1; exact ih (h.net h1) hr
    · cases hr

theorem pick_mem {α : Type} {w : α → Bool} {l : List α} {x : α} {r : List α} (h : pick w l = some (x, r)) : w x = true ∧ x ∈ l := by
  induction l generalizing x r with
  | nil => cases h
  | cons y l ih =>
    simp only [pick] at h
    split at h
    · cases h; exact ⟨by assumption, by simp⟩
    · cases hp : pick w l with
      | none => rw [hp] at h; cases h
      | some z =>
        rw [hp] at h
        cases h
        obtain ⟨a, b⟩ := ih hp
        exact ⟨a, by simp [b]⟩

theorem reqs_ne {l : List Item} : reqs l ≠ [] ↔ ∃ pkt pid, .cast pkt pid ∈ l := by
  induction l with
  | nil => simp [reqs]
  | cons x l ih => cases x with
    | cast pkt pid => exact ⟨fun _ => ⟨pkt, pid, by simp⟩, fun _ => by simp [reqs]⟩
    | udp i p => simp [reqs, ih]
    | other => simp [reqs, ih]

/-- **C74** (the device client does not get stuck): unless it waits for its first request, it can always go on: take a message, turn to the other clause, or time out. -/
theorem C74_never_stuck {τ : Type} {recv : τ → Bytes → Bytes → τ × List Bytes} {absMax : Nat} {t : τ} {es : List Ev} {s : Net τ} (hr : (Net.init t).run recv absMax es = some s) (hg : s.gone = false)
    (hb : s.dc.phase ≠ .idle ∨ s.box ≠ []) : ∃ e s', (e = .recv ∨ e = .turn ∨ e = .timeout) ∧ s.step recv absMax e = some s' := by
  have hI : InFlight s.dc := InFlight.run (s := Net.init t) (fun k hk => by cases hk) hr
  have hgd : s.view.gone = false := by
    have := hg
    simp only [Net.gone, Bool.or_eq_false_iff] at this
    exact this.2
  cases hp : pick (wants s.dc s.sending) s.box with
  | some y =>
    obtain ⟨x, rest⟩ := y
    obtain ⟨hw, hm⟩ := pick_mem hp
    have key : ∃ s', s.recv absMax = some s' := by
      unfold Net.recv
      rw [hp]
      cases x with
      | other => dsimp only; split <;> exact ⟨_, rfl⟩
      | udp i p =>
        dsimp only
        split
        · exact ⟨_, rfl⟩
        · rename_i hid
          have : ∃ r, s.view.step absMax (.udp p) = some r := by
            simp only [DC.step, hgd]
            unfold DC.udp
            have e : s.view.phase = s.dc.phase := rfl
            rw [e]
            simp only [wants] at hw
            cases hph : s.dc.phase with
            | idle => exact (hid hph).elim
            | asking a b c d =>
              rw [hph] at hw
              simp only [] at hw
              simp only [hw, if_true]
              simp only [Bool.false_eq_true, if_false]
              split
              · exact ⟨_, rfl⟩
              · split <;> exact ⟨_, rfl⟩
            | two =>
              rw [hph] at hw
              simp only [] at hw
              have : s.view.h.takes p = true := hw
              simp only [this, if_true, Bool.false_eq_true, if_false]
              exact ⟨_, rfl⟩
            | one n => exact ⟨_, rfl⟩
            | ended => rw [hph] at hw; cases hw
            | failed q => rw [hph] at hw; cases hw
          obtain ⟨r, hr⟩ := this
          unfold Net.proc
          rw [hr]
          exact ⟨_, rfl⟩
      | cast pkt pid =>
        dsimp only
        have : ∃ r, s.view.step absMax .take = some r := by
          simp only [DC.step, hgd]
          simp only [Bool.false_eq_true, if_false]
          unfold DC.take
          have hne : s.view.inbox ≠ [] := reqs_ne.2 ⟨pkt, pid, hm⟩
          have e : s.view.phase = s.dc.phase := rfl
          rw [e]
          cases hi : s.view.inbox with
          | nil => exact (hne hi).elim
          | cons a l =>
            dsimp only
            simp only [wants] at hw
            cases hph : s.dc.phase with
            | idle => dsimp only; split <;> exact ⟨_, rfl⟩
            | asking a b c d => simp [hph, room] at hw
            | two =>
              simp only [hph, room, Bool.and_eq_true, decide_eq_true_eq] at hw
              have : s.view.h.mode = .normal ∧ s.view.h.nr < s.view.h.maxFl := hw.1
              dsimp only
              rw [if_pos this]
              exact ⟨_, rfl⟩
            | one n =>
              cases n with
              | none =>
                simp only [hph, room, Bool.and_eq_true, decide_eq_true_eq] at hw
                have : s.view.flight = none := hw.1
                dsimp only
                rw [if_pos this]
                exact ⟨_, rfl⟩
              | some k => simp [hph, room] at hw
            | ended => simp [hph, room] at hw
            | failed q => simp [hph, room] at hw
        obtain ⟨r, hr⟩ := this
        unfold Net.proc
        rw [hr]
        exact ⟨_, rfl⟩
    obtain ⟨s', h'⟩ := key
    exact ⟨.recv, s', .inl rfl, by simp [Net.step, hg, h']⟩
  | none =>
    by_cases ht : (room s.dc && !s.sending) = true
    · exact ⟨.turn, { s with sending := true }, .inr (.inl rfl), by simp only [Net.step, hg, hp, ht, Option.isNone]; simp⟩
    · have hno := pick_none hp
      have inb : room s.dc = true → s.view.inbox = [] := by
        intro hroom
        by_cases hne : s.view.inbox = []
        · exact hne
        · exfalso
          obtain ⟨pkt, pid, hm⟩ := reqs_ne.1 hne
          have := hno _ hm
          have hs : s.sending = true := by
            rw [hroom] at ht
            simpa using ht
          have hid : s.dc.phase ≠ .idle := by intro h; simp [room, h] at hroom
          simp only [wants, hroom, hs] at this
          cases hph : s.dc.phase <;> simp_all
      have : ∃ r, s.view.step absMax .timeout = some r := by
        simp only [DC.step, hgd]
        simp only [Bool.false_eq_true, if_false]
        unfold DC.timeout
        have e : s.view.phase = s.dc.phase := rfl
        rw [e]
        cases hph : s.dc.phase with
        | idle =>
          exfalso
          rcases hb with hb | hb
          · exact hb hph
          · cases hbx : s.box with
            | nil => exact hb hbx
            | cons x l =>
              have := hno x (by rw [hbx]; simp)
              cases x <;> simp [wants, hph] at this
        | asking a b c d => dsimp only; split <;> exact ⟨_, rfl⟩
        | two =>
          dsimp only
          have hm : ¬ (s.view.h.mode = .stopped ∨ s.view.h.mode = .crashed) := by
            intro hm
            have : s.view.gone = true := by
              simp only [DC.gone, e, hph]
              rcases hm with hm | hm <;> simp [hm]
            rw [this] at hgd
            cases hgd
          rw [if_neg hm, if_neg]
          · exact ⟨_, rfl⟩
          · rintro ⟨h1, h2, h3⟩
            exact h3 (inb (by simp only [room, hph]; exact decide_eq_true ⟨h1, h2⟩))
        | one n =>
          dsimp only
          cases hf : s.view.flight with
          | none =>
            dsimp only
            cases n with
            | none => rw [if_pos (inb (by simp only [room, hph]; exact decide_eq_true hf))]; exact ⟨_, rfl⟩
            | some k => exact (hI k hph hf).elim
          | some f =>
            dsimp only
            cases n with
            | none => exact ⟨_, rfl⟩
            | some k => dsimp only; split <;> exact ⟨_, rfl⟩
        | ended => exfalso; simp [DC.gone, e, hph] at hgd
        | failed q => exfalso; simp [DC.gone, e, hph] at hgd
      obtain ⟨r, hr⟩ := this
      have hp2 : ∃ s', s.proc absMax .timeout s.box = some s' := by
        unfold Net.proc
        rw [hr]
        exact ⟨_, rfl⟩
      obtain ⟨s', h'⟩ := hp2
      refine ⟨.timeout, s', .inr (.inr rfl), ?_⟩
      simp only [Net.step, hg, hp, Option.isSome, Bool.false_or, ht, h']
      simp

/-- It holds a request and asks the target for its state; a datagram from elsewhere is in its mailbox. -/
example : ((Net.init fresh).run (Tgt.recv counter) 16 [.cast [0x20, 0, 7, 0xf0, 10] 1, .recv, .stranger, .next, .next]).map (fun s => (s.gone, s.box, s.dc.phase)) =
    some (false, [.other], .asking false 5 [0x20, 0, 7, 0xf0, 10] 1) := by decide +kernel

end Verif.HubProc
