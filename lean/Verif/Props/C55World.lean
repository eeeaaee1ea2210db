import Verif.Props.C55
/-!
# C55 with an IPbus 2.0 target: what C42 claims, with the first exchange
-/

set_option autoImplicit false
set_option linter.unusedSimpArgs false

namespace Verif.Hub

/-! ## What is claimed -/

/-- The requests cast, in order. -/
def casts : List WEv → List (Bytes × Nat)
  | [] => []
  | .cast pkt pid :: es => (pkt, pid) :: casts es
  | _ :: es => casts es

/-- The IPbus 2.0 control packets among them. -/
def controlCasts (es : List WEv) : List (Bytes × Nat) := (casts es).filter fun r => isControl r.1

/-- At most `L` requests have been sent to the target since the datagram was sent that the step delivers. -/
def WFresh {τ : Type} (L : Nat) (s : World τ) : WEv → Bool
  | .toTarget i _ => match s.toT[i]? with
    | some d => decide (s.sent.length ≤ d.1 + L)
    | none => true
  | .toHub i => match s.toH[i]? with
    | some d => decide (s.sent.length ≤ d.1 + L)
    | none => true
  | _ => true

/-- No datagram is delivered after more than `L` requests have been sent since. -/
def WPrompt {τ : Type} (recv : τ → Bytes → Bytes → τ × List Bytes) (absMax L : Nat) (s : World τ) : List WEv → Bool
  | [] => true
  | e :: es => WFresh L s e && match s.step recv absMax e with
    | some s' => WPrompt recv absMax L s' es
    | none => true

section
variable {σ : Type} {exec : σ → Bytes → σ × Bytes}

/-! ## Proofs -/

def World.toSys (s : World (Tgt σ)) : Sys σ := ⟨s.dc.h, s.tgt, s.toT, s.toH, s.sent⟩

/-- Before the loop: what the device client and the target know of each other. -/
structure Boot (t0 : Tgt σ) (taken : List (Bytes × Nat)) (s : World (Tgt σ)) : Prop where
  phase : (s.dc.phase = .idle ∧ taken = []) ∨ (∃ v l pkt pid, s.dc.phase = .asking v l pkt pid ∧ taken = [(pkt, pid)]) ∨ s.dc.phase = .ended ∨
    (∃ pkt pid, s.dc.phase = .failed pid ∧ taken = [(pkt, pid)] ∧ firstVersion pkt = none)
  tgt : s.tgt = t0
  h : s.dc.h = ⟨.normal, 0, 0, [], 0, []⟩
  flight : s.dc.flight = none
  sent : s.sent = []
  net : ((∀ d ∈ s.toT, d = (0, statusReq13)) ∧ s.toH = []) ∨
    ((∀ d ∈ s.toT, d = (0, statusReq)) ∧ (∀ d ∈ s.toH, d.1 = 0 ∧ ∃ junk : Bytes, junk.length = 48 ∧ d.2 = t0.status junk))
  ask1 : ∀ l pkt pid, s.dc.phase = .asking true l pkt pid → (∀ d ∈ s.toT, d = (0, statusReq13)) ∧ s.toH = []
  ask2 : ∀ l pkt pid, s.dc.phase = .asking false l pkt pid → (∀ d ∈ s.toT, d = (0, statusReq)) ∧
    (∀ d ∈ s.toH, d.1 = 0 ∧ ∃ junk : Bytes, junk.length = 48 ∧ d.2 = t0.status junk)
  idle : s.dc.phase = .idle → s.toT = [] ∧ s.toH = []

/-- In the loop. -/
structure Loop (exec : σ → Bytes → σ × Bytes) (t0 : Tgt σ) (w : Nat) (taken : List (Bytes × Nat)) (s : World (Tgt σ)) : Prop where
  phase : s.dc.phase = .two
  flight : s.dc.flight = none
  inv : ∃ lo e, Inv exec t0 w s.toSys lo e
  acc : s.toSys.accepted.map (fun f => (f.orig ++ f.body, f.pid)) = taken.filter fun r => isControl r.1
  four : Four s.toSys

/-- The invariant; `cs`: the requests cast so far. -/
structure WInv (exec : σ → Bytes → σ × Bytes) (t0 : Tgt σ) (w : Nat) (cs : List (Bytes × Nat)) (s : World (Tgt σ)) : Prop where
  main : ∃ taken, (Boot t0 taken s ∨ Loop exec t0 w taken s) ∧ taken ++ s.dc.inbox <+: cs ∧
    (s.dc.gone = false → taken ++ s.dc.inbox = cs)
  rest : ∀ m ∈ s.dc.rest, m.code ≠ 0

theorem WInv.init (t0 : Tgt σ) (w : Nat) : WInv exec t0 w [] (World.init t0) where
  main := ⟨[], .inl ⟨.inl ⟨rfl, rfl⟩, rfl, rfl, rfl, rfl, .inl ⟨by simp [World.init], rfl⟩, by simp [World.init, DC.init],
    by simp [World.init, DC.init], fun _ => ⟨rfl, rfl⟩⟩, by simp [World.init, DC.init], fun _ => rfl⟩
  rest := by simp [World.init, DC.init]

theorem nBuffers_status (t : Tgt σ) (h : t.depth < 4294967296) (junk : Bytes) : nBuffers (t.status junk) = t.depth := by
  simp [nBuffers, Tgt.status]
  omega

theorem askTakes_status (t : Tgt σ) (junk : Bytes) : askTakes (t.status junk) = true := by
  simp [askTakes, status_take]

theorem recv_statusReq (t : Tgt σ) (junk : Bytes) : t.recv exec statusReq junk = (t, [t.status junk]) := by
  simp [Tgt.recv, statusReq, headerId]

theorem recv_statusReq13 (t : Tgt σ) (junk : Bytes) : t.recv exec statusReq13 junk = (t, []) := by
  simp [Tgt.recv, statusReq13, headerId, List.replicate]

/-- The state in which the loop begins, before the first request is sent. -/
theorem Inv.begin (t0 : Tgt σ) (absMax : Nat) (h : RecentHist t0) {toT toH : List (Nat × Bytes)}
    (hT : ∀ d ∈ toT, d = (0, statusReq))
    (hH : ∀ d ∈ toH, d.1 = 0 ∧ ∃ junk : Bytes, junk.length = 48 ∧ d.2 = t0.status junk) :
    Inv exec t0 (min t0.depth absMax) ⟨⟨.normal, t0.expected, 0, [], min t0.depth absMax, []⟩, t0, toT, toH, []⟩ 0 0 :=
  let h0 := Inv.start exec t0 absMax h
  { hdrs := h0.hdrs
    next := h0.next
    q := h0.q
    loe := h0.loe
    ea := h0.ea
    nr := h0.nr
    win := h0.win
    maxFl := h0.maxFl
    depth := h0.depth
    exp := h0.exp
    log := h0.log
    st := h0.st
    histLen := h0.histLen
    histNew := h0.histNew
    histOld := h0.histOld
    toT := by
      intro d hd
      rw [hT d hd]
      exact ⟨Nat.le_refl _, .inl rfl⟩
    toH := by
      intro d hd
      obtain ⟨h1, junk, h2, h3⟩ := hH d hd
      exact ⟨by simp [h1], .inl ⟨t0, junk, h2, h3⟩⟩
    out := h0.out
    mode := h0.mode }

theorem newSent_none {d d' : DC} (hf : d.flight = none) (hf' : d'.flight = none) : newSent d d' = d'.h.q.drop d.h.q.length := by
  simp [newSent, hf, hf']

theorem recv_q (h : Hub) (p : Bytes) : (h.recv p).1.q.drop h.q.length = [] := by
  have hfw : ∀ g : Hub, (g.forward p).q.drop g.q.length = [] := by
    intro g
    cases hq : g.q with
    | nil => simp [forward_nil hq, hq]
    | cons f q' =>
      rw [forward_cons hq]
      split
      · simp [hq]
      · split
        · simp
        · simp [hq]
  unfold Hub.recv
  split
  · exact hfw h
  · split
    · simp
    · split
      · simp
      · simp [Hub.giveUp]
      · split
        · simp
        · split <;> simp
  · exact hfw { h with mode := .normal }
  · simp
  · simp

theorem timeout_q (h : Hub) : h.timeout.1.q.drop h.q.length = [] := by
  unfold Hub.timeout
  split
  · split <;> simp
  · split <;> simp [Hub.giveUp]
  · split <;> simp [Hub.giveUp]
  · simp
  · simp

theorem drain_rest {d : DC} {code : Nat} (hc : code ≠ 0) (h : ∀ m ∈ d.rest, m.code ≠ 0) : ∀ m ∈ (d.drain code).rest, m.code ≠ 0 := by
  intro m hm
  rcases List.mem_append.mp hm with hm | hm
  · exact h m hm
  · obtain ⟨x, _, rfl⟩ := List.mem_map.mp hm
    exact hc

theorem after_rest {d : DC} {old : Hub} {code : Nat} (hc : code ≠ 0) (h : ∀ m ∈ d.rest, m.code ≠ 0) :
    ∀ m ∈ (d.after old code).rest, m.code ≠ 0 := by
  unfold DC.after
  split
  · exact drain_rest hc h
  · exact h

theorem after_flight (d : DC) (old : Hub) (code : Nat) : (d.after old code).flight = d.flight := by
  unfold DC.after
  split <;> rfl

/-- The mailbox is left as it is, or emptied by a process that stops. -/
theorem after_box (d : DC) (old : Hub) (code : Nat) :
    (d.after old code).inbox = d.inbox ∨ ((d.after old code).inbox = [] ∧ (d.after old code).h.mode = .stopped) := by
  unfold DC.after
  split
  · rename_i hc
    exact .inr ⟨rfl, hc.1⟩
  · exact .inl rfl

theorem box_cases {d d1 : DC} {old : Hub} {code : Nat} (hp : d1.phase = .two) (hi : d1.inbox = d.inbox) (taken : List (Bytes × Nat)) :
    ((d1.after old code).gone = false → taken ++ [] ++ (d1.after old code).inbox = taken ++ d.inbox ++ []) ∧
    (taken ++ [] ++ (d1.after old code).inbox <+: taken ++ d.inbox ++ []) := by
  rcases after_box d1 old code with h | ⟨h1, h2⟩
  · rw [h, hi]; simp
  · refine ⟨fun hg => ?_, by rw [h1]; simp⟩
    exfalso
    rw [(gone_iff _).mpr (.inl (.inr ⟨by rw [(after_phase _ _ _).1, hp], h2⟩))] at hg
    cases hg

/-- A step of the loop is a step of `Verif/Model/Hub.lean`, or a request that waits. -/
theorem loop_step {absMax w L : Nat} {t0 : Tgt σ} {taken : List (Bytes × Nat)} {s s' : World (Tgt σ)} {ev : WEv}
    (hb : L + w + 2 * t0.depth < 65535) (hw : 0 < w) (h : Loop exec t0 w taken s) (hf : WFresh L s ev = true)
    (hs : s.step (Tgt.recv exec) absMax ev = some s') :
    ∃ more, Loop exec t0 w (taken ++ more) s' ∧
      (s'.dc.gone = false → taken ++ more ++ s'.dc.inbox = taken ++ s.dc.inbox ++ casts [ev]) ∧
      (taken ++ more ++ s'.dc.inbox <+: taken ++ s.dc.inbox ++ if s.dc.gone then [] else casts [ev]) ∧
      ((∀ m ∈ s.dc.rest, m.code ≠ 0) → ∀ m ∈ s'.dc.rest, m.code ≠ 0) := by
  obtain ⟨hp, hfl, ⟨lo, e, hinv⟩, hacc, h4⟩ := h
  cases ev with
  | cast pkt pid =>
    simp only [World.step, World.proc, DC.step] at hs
    cases hg : s.dc.gone with
    | true =>
      simp only [hg, if_true, newSent_none hfl hfl, List.drop_length, List.append_nil, List.map_nil, Option.some.injEq] at hs
      subst hs
      refine ⟨[], ⟨hp, hfl, ⟨lo, e, hinv⟩, (by rw [List.append_nil]; exact hacc), h4⟩, fun hg' => by simp [hg] at hg', by simp [hg], fun hr => hr⟩
    | false =>
      simp only [hg, Bool.false_eq_true, if_false, newSent_none hfl (show DC.flight { s.dc with inbox := s.dc.inbox ++ [(pkt, pid)] } = none from hfl),
        List.drop_length, List.append_nil, List.map_nil, Option.some.injEq] at hs
      subst hs
      refine ⟨[], ⟨hp, hfl, ⟨lo, e, hinv⟩, (by rw [List.append_nil]; exact hacc), h4⟩, fun _ => ?_, ?_, fun hr => hr⟩ <;> simp [casts, hg]
  | take =>
    simp only [World.step, World.proc, DC.step] at hs
    cases hg : s.dc.gone with
    | true => simp [hg] at hs
    | false =>
      simp only [hg, Bool.false_eq_true, if_false, DC.take] at hs
      cases hi : s.dc.inbox with
      | nil => simp [hi] at hs
      | cons y r =>
        simp only [hi, hp] at hs
        by_cases hc : s.dc.h.mode = .normal ∧ s.dc.h.nr < s.dc.h.maxFl
        · rw [if_pos hc] at hs
          simp only [Option.some.injEq] at hs
          have hsys : s.toSys.step exec (.request y.1 y.2) = some s'.toSys := by
            subst hs
            simp [Sys.step, World.toSys, hc, newSent, hfl]
          have hacc' := step_accepted hsys
          refine ⟨[y], ⟨by subst hs; rfl, by subst hs; exact hfl, ⟨lo, e, hinv.request hsys⟩, ?_, step_four h4 hsys⟩, fun _ => ?_, ?_, ?_⟩
          · rw [hacc', hacc, List.filter_append]
            simp only [controlRequests, List.filter_cons, List.filter_nil]
          · subst hs; simp [casts]
          · subst hs; simp [casts]
          · subst hs; exact fun hr => hr
        · rw [if_neg hc] at hs
          simp at hs
  | toTarget i junk =>
    have hsys : s.toSys.step exec (.toTarget i junk) = some s'.toSys ∧ s'.dc = s.dc := by
      simp only [World.step] at hs
      simp only [Sys.step, World.toSys]
      cases hd : s.toT[i]? with
      | none => simp [hd] at hs
      | some d =>
        simp only [hd] at hs ⊢
        split at hs
        · rename_i hj
          simp only [Option.some.injEq] at hs
          subst hs
          simp [hj]
        · cases hs
    obtain ⟨hsys, hdc⟩ := hsys
    obtain ⟨e', hinv'⟩ := hinv.toTarget hb (by intro d hd; simpa [WFresh, World.toSys] using (by
      have hd' : s.toT[i]? = some d := hd
      simpa [WFresh, hd'] using hf)) hsys
    refine ⟨[], ⟨by rw [hdc]; exact hp, by rw [hdc]; exact hfl, ⟨lo, e', hinv'⟩, ?_, step_four h4 hsys⟩, fun _ => ?_, ?_, ?_⟩
    · rw [step_accepted hsys, hacc]; simp [controlRequests]
    · rw [hdc]; simp [casts]
    · rw [hdc]; simp [casts]
    · rw [hdc]; exact fun hr => hr
  | toHub i =>
    simp only [World.step] at hs
    cases hd : s.toH[i]? with
    | none => simp [hd] at hs
    | some d =>
      simp only [hd, World.proc, DC.step] at hs
      cases hg : s.dc.gone with
      | true => simp [hg] at hs
      | false =>
        simp only [hg, Bool.false_eq_true, if_false, DC.udp, hp] at hs
        by_cases ht : s.dc.h.takes d.2 = true
        · rw [if_pos ht] at hs
          simp only [Option.some.injEq] at hs
          have hfl' : (DC.after { s.dc with phase := .two, h := (s.dc.h.recv d.2).1 } s.dc.h 5).flight = none := by
            rw [after_flight]; exact hfl
          rw [newSent_none hfl hfl', (after_phase _ _ _).2] at hs
          simp only [recv_q, List.append_nil] at hs
          have hsys : s.toSys.step exec (.toHub i) = some s'.toSys := by
            subst hs
            simp [Sys.step, World.toSys, hd, ht, (after_phase _ _ _).2]
          obtain ⟨lo', hinv'⟩ := hinv.toHub hb (by
            intro d' hd'
            have hd2 : s.toH[i]? = some d' := hd'
            have : s.sent.length ≤ d'.1 + L := by simpa [WFresh, hd2] using hf
            exact this) hsys
          have hbox := box_cases (d := s.dc) (d1 := { s.dc with phase := .two, h := (s.dc.h.recv d.2).1 }) (old := s.dc.h) (code := 5)
            rfl rfl taken
          refine ⟨[], ⟨?_, ?_, ⟨lo', e, hinv'⟩, ?_, step_four h4 hsys⟩, ?_, ?_, ?_⟩
          · subst hs; exact (after_phase _ _ _).1
          · subst hs; exact hfl'
          · rw [step_accepted hsys, hacc]; simp [controlRequests]
          · subst hs; exact hbox.1
          · subst hs; simpa [casts] using hbox.2
          · subst hs; exact fun hr => after_rest (by decide) hr
        · rw [if_neg ht] at hs
          simp at hs
  | timeout =>
    simp only [World.step, World.proc, DC.step] at hs
    cases hg : s.dc.gone with
    | true => simp [hg] at hs
    | false =>
      simp only [hg, Bool.false_eq_true, if_false, DC.timeout, hp] at hs
      by_cases hne : s.dc.h.mode = .stopped ∨ s.dc.h.mode = .crashed
      · rw [if_pos hne] at hs; simp at hs
      · rw [if_neg hne] at hs
        by_cases hc : s.dc.h.mode = .normal ∧ s.dc.h.nr < s.dc.h.maxFl ∧ s.dc.inbox ≠ []
        · rw [if_pos hc] at hs; simp at hs
        · rw [if_neg hc] at hs
          simp only [Option.some.injEq] at hs
          have hcode0 := errCode_ne s.dc.h.mode
          generalize errCode s.dc.h.mode = code at hs hcode0
          have hfl' : (DC.after { s.dc with phase := .two, h := s.dc.h.timeout.1 } s.dc.h code).flight = none := by
            rw [after_flight]; exact hfl
          rw [newSent_none hfl hfl', (after_phase _ _ _).2] at hs
          simp only [timeout_q, List.append_nil] at hs
          have hsys : s.toSys.step exec .timeout = some s'.toSys := by
            subst hs
            simp [Sys.step, World.toSys, hne, (after_phase _ _ _).2]
          have hinv' := hinv.timeout hw hsys
          have hbox := box_cases (d := s.dc) (d1 := { s.dc with phase := .two, h := s.dc.h.timeout.1 }) (old := s.dc.h) (code := code)
            rfl rfl taken
          refine ⟨[], ⟨?_, ?_, ⟨lo, e, hinv'⟩, ?_, step_four h4 hsys⟩, ?_, ?_, ?_⟩
          · subst hs; exact (after_phase _ _ _).1
          · subst hs; exact hfl'
          · rw [step_accepted hsys, hacc]; simp [controlRequests]
          · subst hs; exact hbox.1
          · subst hs; simpa [casts] using hbox.2
          · subst hs; exact fun hr => after_rest hcode0 hr

theorem askDgrams_mem {v : Bool} {l : Nat} {b : Bytes} (h : b ∈ askDgrams v l) : b = if v then statusReq13 else statusReq := by
  cases v
  · simpa [askDgrams] using h
  · have := h
    simp [askDgrams] at this
    simpa using this.2

/-- A step before the loop. -/
theorem boot_step {absMax : Nat} {t0 : Tgt σ} {taken : List (Bytes × Nat)} {s s' : World (Tgt σ)} {ev : WEv}
    (hd : 0 < t0.depth) (hd32 : t0.depth < 4294967296) (ha : 0 < absMax) (h0 : RecentHist t0) (h : Boot t0 taken s)
    (hs : s.step (Tgt.recv exec) absMax ev = some s') :
    ∃ more, (Boot t0 (taken ++ more) s' ∨ Loop exec t0 (min t0.depth absMax) (taken ++ more) s') ∧
      (s'.dc.gone = false → taken ++ more ++ s'.dc.inbox = taken ++ s.dc.inbox ++ casts [ev]) ∧
      (taken ++ more ++ s'.dc.inbox <+: taken ++ s.dc.inbox ++ if s.dc.gone then [] else casts [ev]) ∧
      ((∀ m ∈ s.dc.rest, m.code ≠ 0) → ∀ m ∈ s'.dc.rest, m.code ≠ 0) := by
  have hfl := h.flight
  have hh := h.h
  have hsent := h.sent
  cases ev with
  | cast pkt pid =>
    simp only [World.step, World.proc, DC.step] at hs
    cases hg : s.dc.gone with
    | true =>
      simp only [hg, if_true, newSent_none hfl hfl, List.drop_length, List.append_nil, List.map_nil, Option.some.injEq] at hs
      subst hs
      refine ⟨[], .inl (by rw [List.append_nil]; exact h), fun hg' => by simp [hg] at hg', by simp [hg], fun hr => hr⟩
    | false =>
      simp only [hg, Bool.false_eq_true, if_false, newSent_none hfl (show DC.flight { s.dc with inbox := s.dc.inbox ++ [(pkt, pid)] } = none from hfl),
        List.drop_length, List.append_nil, List.map_nil, Option.some.injEq] at hs
      subst hs
      refine ⟨[], .inl ?_, fun _ => by simp [casts], by simp [casts, hg], fun hr => hr⟩
      rw [List.append_nil]
      exact ⟨h.phase, h.tgt, h.h, h.flight, h.sent, h.net, h.ask1, h.ask2, h.idle⟩
  | take =>
    simp only [World.step, World.proc, DC.step] at hs
    cases hg : s.dc.gone with
    | true => simp [hg] at hs
    | false =>
      simp only [hg, Bool.false_eq_true, if_false, DC.take] at hs
      cases hi : s.dc.inbox with
      | nil => simp [hi] at hs
      | cons y r =>
        simp only [hi] at hs
        rcases h.phase with ⟨hp, ht⟩ | ⟨v, l, pkt, pid, hp, ht⟩ | hp | ⟨_, pid, hp, _⟩
        · subst ht
          obtain ⟨hT, hH⟩ := h.idle hp
          simp only [hp] at hs
          cases hv : firstVersion y.1 with
          | none =>
            simp only [hv, Option.some.injEq, newSent, hfl, hh, List.map_nil, List.append_nil, List.drop_nil] at hs
            subst hs
            refine ⟨[y], .inl ⟨.inr (.inr (.inr ⟨_, _, rfl, rfl, hv⟩)), h.tgt, rfl, rfl, hsent, h.net, ?_, ?_, ?_⟩, fun _ => by simp [casts],
              by simp [casts], fun hr => hr⟩
            · intro _ _ _ hk; cases hk
            · intro _ _ _ hk; cases hk
            · intro hk; cases hk
          | some v =>
            simp only [hv, Option.some.injEq, newSent, hfl, hh, List.append_nil, List.drop_nil, hsent, List.length_nil] at hs
            subst hs
            simp only [hT, hH, List.nil_append]
            have hask : ∀ d ∈ (askDgrams v 5).map (fun b => ((0 : Nat), b)), d = (0, if v then statusReq13 else statusReq) := by
              intro d hd
              obtain ⟨b, hb, rfl⟩ := List.mem_map.mp hd
              rw [askDgrams_mem hb]
            refine ⟨[y], .inl ⟨.inr (.inl ⟨_, _, _, _, rfl, rfl⟩), h.tgt, rfl, rfl, rfl, ?_, ?_, ?_, ?_⟩, fun _ => by simp [casts],
              by simp [casts], fun hr => hr⟩
            · cases v
              · exact .inr ⟨fun d hd => by simpa using hask d hd, by simp⟩
              · exact .inl ⟨fun d hd => by simpa using hask d hd, rfl⟩
            · intro _ _ _ hk
              simp only [Phase.asking.injEq] at hk
              obtain ⟨rfl, _⟩ := hk
              exact ⟨fun d hd => by simpa using hask d hd, rfl⟩
            · intro _ _ _ hk
              simp only [Phase.asking.injEq] at hk
              obtain ⟨rfl, _⟩ := hk
              exact ⟨fun d hd => by simpa using hask d hd, by simp⟩
            · intro hk; cases hk
        · simp [hp] at hs
        · simp [hp] at hs
        · simp [hp] at hs
  | toTarget i junk =>
    simp only [World.step] at hs
    cases hdt : s.toT[i]? with
    | none => simp [hdt] at hs
    | some d =>
      simp only [hdt] at hs
      have hmem := List.mem_of_getElem? hdt
      split at hs
      · rename_i hj
        simp only [Option.some.injEq] at hs
        refine ⟨[], .inl ?_, ?_⟩
        · rw [List.append_nil]
          rcases h.net with ⟨hT, hH⟩ | ⟨hT, hH⟩
          · have hd2 := hT d hmem
            rw [hd2, recv_statusReq13] at hs
            simp only [List.map_nil, List.append_nil] at hs
            subst hs
            exact ⟨h.phase, h.tgt, h.h, h.flight, h.sent, h.net, h.ask1, h.ask2, h.idle⟩
          · have hd2 := hT d hmem
            rw [hd2, recv_statusReq] at hs
            subst hs
            have hH' : ∀ d ∈ s.toH ++ [(s.sent.length, s.tgt.status junk)], d.1 = 0 ∧ ∃ junk : Bytes, junk.length = 48 ∧ d.2 = t0.status junk := by
              intro d hd
              rcases List.mem_append.mp hd with hd | hd
              · exact hH d hd
              · simp only [List.mem_singleton] at hd
                subst hd
                exact ⟨by simp [hsent], junk, hj, by rw [h.tgt]⟩
            refine ⟨h.phase, h.tgt, h.h, h.flight, h.sent, .inr ⟨hT, hH'⟩, ?_, fun _ _ _ _ => ⟨hT, hH'⟩, ?_⟩
            · intro l pkt pid hk
              have h1 := (h.ask1 l pkt pid hk).1 d hmem
              rw [hT d hmem] at h1
              exact absurd h1 (by decide)
            · intro hk
              rw [(h.idle hk).1] at hmem
              cases hmem
        · have hdc : s'.dc = s.dc := by subst hs; rfl
          rw [hdc]
          exact ⟨fun _ => by simp [casts], by simp [casts], fun hr => hr⟩
      · cases hs
  | toHub i =>
    simp only [World.step] at hs
    cases hdh : s.toH[i]? with
    | none => simp [hdh] at hs
    | some d =>
      have hmem := List.mem_of_getElem? hdh
      simp only [hdh, World.proc, DC.step] at hs
      cases hg : s.dc.gone with
      | true => simp [hg] at hs
      | false =>
        simp only [hg, Bool.false_eq_true, if_false, DC.udp] at hs
        rcases h.phase with ⟨hp, ht⟩ | ⟨v, l, pkt, pid, hp, ht⟩ | hp | ⟨_, pid, hp, _⟩
        · simp [hp] at hs
        · cases v with
          | true => rw [(h.ask1 l pkt pid hp).2] at hmem; cases hmem
          | false =>
            obtain ⟨hT, hH⟩ := h.ask2 l pkt pid hp
            obtain ⟨_, junk, hj, hd2⟩ := hH d hmem
            have hne : (t0.status junk).take 4 ≠ [0xfc, 0, 0, 0x10] := by rw [status_take]; decide
            simp only [hp, hd2, askTakes_status, if_true, hne, if_false, parseStatus_status _ _ hj, nBuffers_status t0 hd32,
              Option.some.injEq] at hs
            have hb := Inv.begin (exec := exec) t0 absMax h0 hT hH
            have hstep : Sys.step exec ⟨⟨.normal, t0.expected, 0, [], min t0.depth absMax, []⟩, t0, s.toT, s.toH, []⟩ (.request pkt pid)
                = some s'.toSys := by
              subst hs
              have : 0 < min t0.depth absMax := by omega
              simp [Sys.step, World.toSys, this, newSent, hfl, hh, hsent, h.tgt]
            refine ⟨[], .inr ⟨?_, ?_, ⟨0, 0, hb.request hstep⟩, ?_, ?_⟩, ?_, ?_, ?_⟩
            · subst hs; rfl
            · subst hs; exact hfl
            · rw [step_accepted hstep, ht]
              simp only [controlRequests, List.append_nil, List.map_nil, List.nil_append, List.filter_cons, List.filter_nil]
            · exact step_four (by intro f hf; cases hf) hstep
            · subst hs; exact fun _ => by simp [casts]
            · subst hs; simp [casts]
            · subst hs; exact fun hr => hr
        · simp [hp] at hs
        · simp [hp] at hs
  | timeout =>
    simp only [World.step, World.proc, DC.step] at hs
    cases hg : s.dc.gone with
    | true => simp [hg] at hs
    | false =>
      simp only [hg, Bool.false_eq_true, if_false, DC.timeout] at hs
      rcases h.phase with ⟨hp, ht⟩ | ⟨v, l, pkt, pid, hp, ht⟩ | hp | ⟨_, pid, hp, _⟩
      · simp [hp] at hs
      · simp only [hp] at hs
        by_cases hl : l = 1
        · rw [if_pos hl] at hs
          simp only [Option.some.injEq, newSent, DC.refuse, DC.drain, hfl, hh, hsent, List.map_nil, List.append_nil, List.drop_nil] at hs
          subst hs
          refine ⟨[], .inl ⟨.inr (.inr (.inl rfl)), h.tgt, rfl, rfl, rfl, h.net, ?_, ?_, ?_⟩, ?_, ?_, ?_⟩
          · intro _ _ _ hk; cases hk
          · intro _ _ _ hk; cases hk
          · intro hk; cases hk
          · intro hk; cases hk
          · simp [casts]
          · intro hr m hm
            rcases List.mem_append.mp hm with hm | hm
            · rcases List.mem_append.mp hm with hm | hm
              · exact hr m hm
              · simp only [List.mem_singleton] at hm; subst hm; simp
            · obtain ⟨x, _, rfl⟩ := List.mem_map.mp hm
              simp
        · rw [if_neg hl] at hs
          simp only [Option.some.injEq, newSent, hfl, hh, hsent, List.append_nil, List.drop_nil, List.length_nil] at hs
          subst hs
          have hask : ∀ d ∈ (askDgrams v (l - 1)).map (fun b => ((0 : Nat), b)), d = (0, if v then statusReq13 else statusReq) := by
            intro d hd
            obtain ⟨b, hb, rfl⟩ := List.mem_map.mp hd
            rw [askDgrams_mem hb]
          have happ : ∀ (x : Nat × Bytes), (0, if v then statusReq13 else statusReq) = x → (∀ d ∈ s.toT, d = x) →
              ∀ d ∈ s.toT ++ (askDgrams v (l - 1)).map (fun b => ((0 : Nat), b)), d = x := by
            intro x hx hT d hd
            rcases List.mem_append.mp hd with hd | hd
            · exact hT d hd
            · rw [hask d hd]; exact hx
          refine ⟨[], .inl ⟨.inr (.inl ⟨_, _, _, _, rfl, by rw [List.append_nil]; exact ht⟩), h.tgt, rfl, rfl, rfl, ?_, ?_, ?_, ?_⟩,
            fun _ => by simp [casts], by simp [casts], fun hr => hr⟩
          · cases v with
            | true => exact .inl ⟨happ _ rfl (h.ask1 l pkt pid hp).1, (h.ask1 l pkt pid hp).2⟩
            | false => exact .inr ⟨happ _ rfl (h.ask2 l pkt pid hp).1, (h.ask2 l pkt pid hp).2⟩
          · intro _ _ _ hk
            simp only [Phase.asking.injEq] at hk
            obtain ⟨rfl, _⟩ := hk
            exact ⟨happ _ rfl (h.ask1 l pkt pid hp).1, (h.ask1 l pkt pid hp).2⟩
          · intro _ _ _ hk
            simp only [Phase.asking.injEq] at hk
            obtain ⟨rfl, _⟩ := hk
            exact ⟨happ _ rfl (h.ask2 l pkt pid hp).1, (h.ask2 l pkt pid hp).2⟩
          · intro hk; cases hk
      · simp [hp] at hs
      · simp [hp] at hs

theorem casts_cons (e : WEv) (es : List WEv) : casts (e :: es) = casts [e] ++ casts es := by cases e <;> simp [casts]

theorem world_step_gone {absMax : Nat} {s s' : World (Tgt σ)} {ev : WEv} (hg : s.dc.gone = true)
    (hs : s.step (Tgt.recv exec) absMax ev = some s') : s'.dc.gone = true := by
  have hproc : ∀ e, s.proc absMax e = some s' → s'.dc.gone = true := by
    intro e hp
    simp only [World.proc] at hp
    cases hr : s.dc.step absMax e with
    | none => simp [hr] at hp
    | some r =>
      have := gone_step hg hr
      subst this
      simp only [hr, Option.some.injEq] at hp
      subst hp
      exact hg
  cases ev with
  | cast pkt pid => exact hproc _ hs
  | take => exact hproc _ hs
  | toTarget i junk =>
    simp only [World.step] at hs
    split at hs
    · cases hs
    · split at hs
      · simp only [Option.some.injEq] at hs; subst hs; exact hg
      · cases hs
  | toHub i =>
    simp only [World.step] at hs
    split at hs
    · cases hs
    · exact hproc _ hs
  | timeout => exact hproc _ hs

theorem WInv.step {absMax L : Nat} {t0 : Tgt σ} {cs : List (Bytes × Nat)} {s s' : World (Tgt σ)} {ev : WEv}
    (hd : 0 < t0.depth) (hd32 : t0.depth < 4294967296) (ha : 0 < absMax) (hb : L + min t0.depth absMax + 2 * t0.depth < 65535)
    (h0 : RecentHist t0) (h : WInv exec t0 (min t0.depth absMax) cs s) (hf : WFresh L s ev = true)
    (hs : s.step (Tgt.recv exec) absMax ev = some s') : WInv exec t0 (min t0.depth absMax) (cs ++ casts [ev]) s' := by
  obtain ⟨⟨taken, hm, hpre, heq⟩, hrest⟩ := h
  have key : ∃ more, (Boot t0 (taken ++ more) s' ∨ Loop exec t0 (min t0.depth absMax) (taken ++ more) s') ∧
      (s'.dc.gone = false → taken ++ more ++ s'.dc.inbox = taken ++ s.dc.inbox ++ casts [ev]) ∧
      (taken ++ more ++ s'.dc.inbox <+: taken ++ s.dc.inbox ++ if s.dc.gone then [] else casts [ev]) ∧
      ((∀ m ∈ s.dc.rest, m.code ≠ 0) → ∀ m ∈ s'.dc.rest, m.code ≠ 0) := by
    rcases hm with hm | hm
    · exact boot_step hd hd32 ha h0 hm hs
    · obtain ⟨more, h1, h2⟩ := loop_step hb (by omega) hm hf hs
      exact ⟨more, .inr h1, h2⟩
  obtain ⟨more, h1, h2, h3, h4⟩ := key
  refine ⟨⟨taken ++ more, h1, ?_, ?_⟩, h4 hrest⟩
  · cases hg : s.dc.gone with
    | true =>
      rw [hg] at h3
      simp only [if_true, List.append_nil] at h3
      rw [List.append_assoc] at *
      exact (h3.trans hpre).trans (List.prefix_append _ _)
    | false =>
      rw [hg] at h3
      rw [← heq hg]
      simpa using h3
  · intro hg'
    cases hg : s.dc.gone with
    | true => rw [world_step_gone hg hs] at hg'; cases hg'
    | false => rw [h2 hg', heq hg]

theorem WInv.run {absMax L : Nat} {t0 : Tgt σ} (hd : 0 < t0.depth) (hd32 : t0.depth < 4294967296) (ha : 0 < absMax)
    (hb : L + min t0.depth absMax + 2 * t0.depth < 65535) (h0 : RecentHist t0) (es : List WEv) :
    ∀ (cs : List (Bytes × Nat)) (s s' : World (Tgt σ)), WInv exec t0 (min t0.depth absMax) cs s →
      WPrompt (Tgt.recv exec) absMax L s es = true → s.run (Tgt.recv exec) absMax es = some s' →
      WInv exec t0 (min t0.depth absMax) (cs ++ casts es) s' := by
  induction es with
  | nil =>
    intro cs s s' h _ hr
    simp only [World.run, Option.some.injEq] at hr
    subst hr
    simpa [casts] using h
  | cons e es ih =>
    intro cs s s' h hp hr
    simp only [World.run] at hr
    cases hs : s.step (Tgt.recv exec) absMax e with
    | none => simp [hs] at hr
    | some s1 =>
      simp only [hs] at hr
      simp only [WPrompt, hs, Bool.and_eq_true] at hp
      have := ih _ s1 s' (h.step hd hd32 ha hb h0 hp.1 hs) hp.2 hr
      rw [casts_cons, ← List.append_assoc]
      exact this

/-- What is known about every run. -/
theorem world_facts {absMax L : Nat} {t0 : Tgt σ} (hd : 0 < t0.depth) (hd32 : t0.depth < 4294967296) (ha : 0 < absMax)
    (hb : L + min t0.depth absMax + 2 * t0.depth < 65535) (h0 : RecentHist t0) {es : List WEv} {s : World (Tgt σ)}
    (hp : WPrompt (Tgt.recv exec) absMax L (World.init t0) es = true)
    (hr : (World.init t0).run (Tgt.recv exec) absMax es = some s) :
    (∃ taken, (Boot t0 taken s ∨ Loop exec t0 (min t0.depth absMax) taken s) ∧ taken <+: casts es) ∧ ∀ m ∈ s.dc.rest, m.code ≠ 0 := by
  obtain ⟨⟨taken, h1, h2, _⟩, h3⟩ := WInv.run hd hd32 ha hb h0 es [] _ s (WInv.init t0 _) hp hr
  rw [List.nil_append] at h2
  exact ⟨⟨taken, h1, (List.prefix_append _ _).trans h2⟩, h3⟩

/-- **C55, the target.** With the first exchange: the target executes an initial part of the control packets that were cast to the device
client, each of them once, in order. -/
theorem C55_once_partial {absMax L : Nat} {t0 : Tgt σ} (hd : 0 < t0.depth) (hd32 : t0.depth < 4294967296) (ha : 0 < absMax)
    (hb : L + min t0.depth absMax + 2 * t0.depth < 65535) (h0 : RecentHist t0) {es : List WEv} {s : World (Tgt σ)}
    (hp : WPrompt (Tgt.recv exec) absMax L (World.init t0) es = true)
    (hr : (World.init t0).run (Tgt.recv exec) absMax es = some s) :
    ∃ e, e ≤ (controlCasts es).length ∧
      s.tgt.log.length = t0.log.length + e ∧
      s.tgt.log.take t0.log.length = t0.log ∧
      (∀ k r, k < e → (controlCasts es)[k]? = some r →
        ∃ en, s.tgt.log[t0.log.length + k]? = some (pktHeader (idAt t0.expected k) en ++ bodyOf r)) ∧
      s.tgt.st = final exec t0.st (((controlCasts es).take e).map bodyOf) := by
  obtain ⟨⟨taken, h1, h2⟩, _⟩ := world_facts hd hd32 ha hb h0 hp hr
  rcases h1 with h1 | h1
  · refine ⟨0, Nat.zero_le _, by rw [h1.tgt]; rfl, by rw [h1.tgt]; simp, fun k r hk => by omega, by rw [h1.tgt]; rfl⟩
  · obtain ⟨lo, e, hinv⟩ := h1.inv
    obtain ⟨g1, g2, g3, g4, g5⟩ := hinv.once h1.acc (h1.four.bodies h1.acc)
    obtain ⟨more, hmore⟩ := h2.filter (fun r => isControl r.1)
    have hcc : controlCasts es = (taken.filter fun r => isControl r.1) ++ more := hmore.symm
    refine ⟨e, by rw [hcc, List.length_append]; omega, g2, g3, fun k r hk hkr => ?_, ?_⟩
    · rw [hcc, List.getElem?_append_left (by omega)] at hkr
      exact g4 k r hk hkr
    · rw [hcc, List.take_append_of_le_length g1]
      exact g5

/-- **C55, the clients.** The `k`-th reply that is forwarded goes to the client of the `k`-th control packet cast to the device client,
with its packet header, and contains what the target answered to it after executing those before it. -/
theorem C55_reply_partial {absMax L : Nat} {t0 : Tgt σ} (hd : 0 < t0.depth) (hd32 : t0.depth < 4294967296) (ha : 0 < absMax)
    (hb : L + min t0.depth absMax + 2 * t0.depth < 65535) (h0 : RecentHist t0) {es : List WEv} {s : World (Tgt σ)}
    (hp : WPrompt (Tgt.recv exec) absMax L (World.init t0) es = true)
    (hr : (World.init t0).run (Tgt.recv exec) absMax es = some s) {k : Nat} {m : Msg}
    (hm : (s.dc.msgs.filter (fun m => decide (m.code = 0)))[k]? = some m) :
    ∃ pkt, (controlCasts es)[k]? = some (pkt, m.pid) ∧
      m.pkt = pkt.take 4 ++ (exec (final exec t0.st (((controlCasts es).take k).map bodyOf)) (pkt.drop 4)).2 := by
  obtain ⟨⟨taken, h1, h2⟩, h3⟩ := world_facts hd hd32 ha hb h0 hp hr
  have hrest : s.dc.rest.filter (fun m => decide (m.code = 0)) = [] := by
    rw [List.filter_eq_nil_iff]
    intro m hm
    simpa using h3 m hm
  rw [DC.msgs, List.filter_append, hrest, List.append_nil] at hm
  rcases h1 with h1 | h1
  · rw [h1.h] at hm
    simp at hm
  · obtain ⟨lo, e, hinv⟩ := h1.inv
    obtain ⟨pkt, g1, g2⟩ := hinv.reply h1.four h1.acc (h1.four.bodies h1.acc) hm
    obtain ⟨more, hmore⟩ := h2.filter (fun r => isControl r.1)
    have hcc : controlCasts es = (taken.filter fun r => isControl r.1) ++ more := hmore.symm
    have hlt := lt_of_get g1
    refine ⟨pkt, by rw [hcc]; exact get_append g1, ?_⟩
    rw [hcc, List.take_append_of_le_length (by omega)]
    exact g2

/-- **C55, no error.** If the first request is a packet of IPbus 1.3 or 2.0, the device client never fails to match what it receives. -/
theorem C55_no_error_partial {absMax L : Nat} {t0 : Tgt σ} (hd : 0 < t0.depth) (hd32 : t0.depth < 4294967296) (ha : 0 < absMax)
    (hb : L + min t0.depth absMax + 2 * t0.depth < 65535) (h0 : RecentHist t0) {es : List WEv} {s : World (Tgt σ)}
    (hfirst : ∀ r, (casts es).head? = some r → Packet r.1)
    (hp : WPrompt (Tgt.recv exec) absMax L (World.init t0) es = true)
    (hr : (World.init t0).run (Tgt.recv exec) absMax es = some s) : ¬ s.dc.broken := by
  obtain ⟨⟨taken, h1, h2⟩, _⟩ := world_facts hd hd32 ha hb h0 hp hr
  rintro (⟨pid, hb⟩ | ⟨hb1, hb2⟩)
  · rcases h1 with h1 | h1
    · rcases h1.phase with ⟨hp, _⟩ | ⟨v, l, pkt, pid, hp, _⟩ | hp | ⟨pkt, pid', hp, ht, hv⟩
      · rw [hb] at hp; cases hp
      · rw [hb] at hp; cases hp
      · rw [hb] at hp; cases hp
      · obtain ⟨more, hmore⟩ := h2
        exact (hfirst (pkt, pid') (by rw [← hmore, ht]; rfl)).known hv
    · rw [h1.phase] at hb; cases hb
  · rcases h1 with h1 | h1
    · rw [h1.h] at hb2; cases hb2
    · obtain ⟨lo, e, hinv⟩ := h1.inv
      exact hinv.mode.1 hb2

end

/-! ## A case in which the hypotheses hold -/

/-- Two clients; the first status request is lost, the second reply is lost and recovered. -/
def worldRun : List WEv :=
  [.cast [0x20, 0, 7, 0xf0, 10] 1, .take, .timeout, .cast [0xf0, 8, 0, 0x20, 20] 2, .toTarget 1 (List.replicate 48 0), .toHub 0, .take,
   .toTarget 2 (List.replicate 48 0), .toHub 1, .toTarget 3 (List.replicate 48 0), .timeout, .toTarget 4 (List.replicate 48 0), .toHub 3,
   .toTarget 5 (List.replicate 48 0), .toHub 4, .timeout]

/-- The hypotheses of the theorems above hold for `worldRun` … -/
example : 0 < fresh.depth ∧ fresh.depth < 4294967296 ∧ 2 + min fresh.depth 16 + 2 * fresh.depth < 65535 ∧ RecentHist fresh ∧
    (∀ r, (casts worldRun).head? = some r → Packet r.1) ∧
    WPrompt (Tgt.recv counter) 16 2 (World.init fresh) worldRun = true :=
  ⟨by decide, by decide, by decide, ⟨by decide, by intro p x h; simp [fresh] at h⟩, (by rintro r h; cases h; exact .inl rfl), by decide +kernel⟩

/-- … at the end of which both packets have been executed once and answered, and the process has stopped. -/
example : ((World.init fresh).run (Tgt.recv counter) 16 worldRun).map (fun s => (s.dc.msgs, s.tgt.log, s.dc.h.mode)) =
    some ([⟨1, 0, [0x20, 0, 7, 0xf0, 0, 10]⟩, ⟨2, 0, [0xf0, 8, 0, 0x20, 1, 20]⟩],
      [[0x20, 0, 1, 0xf0, 10], [0xf0, 2, 0, 0x20, 20]], .stopped) := by decide +kernel

/-- If the first request is of IPbus 1.3, an IPbus 2.0 target is not asked in its language: also the requests of others fail. -/
example : ((World.init fresh).run (Tgt.recv counter) 16 ([.cast [0xf8, 0, 0, 0x10] 1, .take, .cast [0x20, 0, 7, 0xf0, 10] 2,
      .toTarget 0 (List.replicate 48 0)] ++ List.replicate 5 .timeout)).map (fun s => (s.dc.msgs, s.tgt.log, s.toH)) =
    some ([⟨1, 3, []⟩, ⟨2, 3, []⟩], [], []) := by decide +kernel

end Verif.Hub
