import Verif.Props.C56
/-!
# C56, continued: the order of the answers

The device client of an IPbus 1.3 target answers the requests in the order in which they came, and a reply that it forwards is the one to the
request that it answers with it (/repo/controlhub/src/ch_device_client.erl:246-277, 350-361, 376-413, 482-489).
-/

set_option autoImplicit false
set_option linter.unusedSimpArgs false

namespace Verif.Hub

section
variable {σ : Type} {exec : σ → Bytes → σ × Bytes}

/-- The number of IPbus 1.3 packets. -/
def n13 (l : List (Bytes × Nat)) : Nat := (l.filter fun r => is13 r.1).length

/-- The requests that are answered, and the answers. -/
structure Said (H : List (Nat × Bytes)) (dn : List (Bytes × Nat)) (ms : List Msg) : Prop where
  len : ms.length = dn.length
  each : ∀ (i : Nat) (m : Msg) (r : Bytes × Nat), ms[i]? = some m → dn[i]? = some r →
    m.pid = r.2 ∧ (m.code = 0 → is13 r.1 = true ∧ (n13 (dn.take i) + 1, m.pkt) ∈ H) ∧
    (m.code ≠ 0 → m.pkt = [] ∧ (m.code = 1 ∨ m.code = 3 ∨ m.code = 6))

theorem Said.mono {H H' : List (Nat × Bytes)} {dn : List (Bytes × Nat)} {ms : List Msg} (h : Said H dn ms) (hH : ∀ x ∈ H, x ∈ H') :
    Said H' dn ms :=
  ⟨h.len, fun i m r hm hr => ⟨(h.each i m r hm hr).1, fun hc => ⟨((h.each i m r hm hr).2.1 hc).1, hH _ ((h.each i m r hm hr).2.1 hc).2⟩,
    (h.each i m r hm hr).2.2⟩⟩

theorem Said.snoc {H : List (Nat × Bytes)} {dn : List (Bytes × Nat)} {ms : List Msg} (h : Said H dn ms) {r : Bytes × Nat} {m : Msg}
    (hp : m.pid = r.2) (h0 : m.code = 0 → is13 r.1 = true ∧ (n13 dn + 1, m.pkt) ∈ H)
    (he : m.code ≠ 0 → m.pkt = [] ∧ (m.code = 1 ∨ m.code = 3 ∨ m.code = 6)) : Said H (dn ++ [r]) (ms ++ [m]) := by
  refine ⟨by simp [h.len], ?_⟩
  intro i m' r' hm hr
  by_cases hi : i < dn.length
  · rw [List.getElem?_append_left (by rw [h.len]; exact hi)] at hm
    rw [List.getElem?_append_left hi] at hr
    have := h.each i m' r' hm hr
    rw [List.take_append_of_le_length (by omega)]
    exact this
  · have hi' : i = dn.length := by
      have := (List.getElem?_eq_some_iff.1 hr).1
      rw [List.length_append, List.length_singleton] at this
      omega
    subst hi'
    rw [List.getElem?_append_right (Nat.le_refl _), Nat.sub_self] at hr
    rw [List.getElem?_append_right (by rw [h.len]; exact Nat.le_refl _), h.len, Nat.sub_self] at hm
    simp only [List.getElem?_cons_zero, Option.some.injEq] at hm hr
    subst hm hr
    rw [List.take_left]
    exact ⟨hp, h0, he⟩

theorem Said.drain {H : List (Nat × Bytes)} {code : Nat} (hc : code = 1 ∨ code = 3 ∨ code = 6) : ∀ (box : List (Bytes × Nat))
    {dn : List (Bytes × Nat)} {ms : List Msg}, Said H dn ms → Said H (dn ++ box) (ms ++ box.map fun x => ⟨x.2, code, []⟩) := by
  intro box
  induction box with
  | nil => intro dn ms h; simpa using h
  | cons x box ih =>
    intro dn ms h
    have h1 := h.snoc (r := x) (m := ⟨x.2, code, []⟩) rfl (fun h0 => by simp only at h0; omega) (fun _ => ⟨rfl, hc⟩)
    have := ih h1
    simpa using this

/-- Where the requests are: answered (`dn`), held (`cur`), in the mailbox. -/
structure Pos (cs : List (Bytes × Nat)) (s : World (Tgt13 σ)) (dn cur : List (Bytes × Nat)) : Prop where
  phase : (s.dc.phase = .idle ∧ cur = [] ∧ dn = [] ∧ s.sent = []) ∨
    (∃ v l pkt pid, s.dc.phase = .asking v l pkt pid ∧ cur = [(pkt, pid)] ∧ dn = [] ∧ s.sent = []) ∨
    (∃ n, s.dc.phase = .one n ∧ cur = (s.dc.flight.map fun f => (f.2, f.1)).toList ∧
      s.sent.map (fun f => (f.body, f.pid)) = (dn ++ cur).filter fun r => is13 r.1) ∨
    ((s.dc.phase = .ended ∨ ∃ pid, s.dc.phase = .failed pid) ∧ s.sent.map (fun f => (f.body, f.pid)) <+: dn.filter fun r => is13 r.1)
  fl : ∀ f, s.dc.flight = some f → is13 f.2 = true
  box : dn ++ cur ++ s.dc.inbox <+: cs
  all : s.dc.gone = false → dn ++ cur ++ s.dc.inbox = cs
  said : Said s.toH dn s.dc.rest

theorem Pos.init (t0 : Tgt13 σ) : Pos [] (World.init t0) [] [] where
  phase := .inl ⟨rfl, rfl, rfl, rfl⟩
  fl := by intro f h; cases h
  box := List.prefix_refl _
  all := fun _ => rfl
  said := ⟨rfl, by intro i m r h; simp [World.init, DC.init] at h⟩

/-- The process takes a packet in the loop. -/
theorem Pos.send {cs : List (Bytes × Nat)} {s : World (Tgt13 σ)} {dn : List (Bytes × Nat)} {d : DC} {y : Bytes × Nat} {T : List (Nat × Bytes)}
    (hreq : s.sent.map (fun f => (f.body, f.pid)) = dn.filter fun r => is13 r.1) (hsaid : Said s.toH dn d.rest) (hph : d.phase = .one none)
    (hh : d.h = ⟨.normal, 0, 0, [], 0, []⟩) (hdf : d.flight = none) (hsf : s.dc.flight = none) (heq : dn ++ y :: d.inbox = cs) :
    ∃ dn' cur', Pos cs { s with dc := (d.send13 y.1 y.2).1, sent := s.sent ++ newSent s.dc (d.send13 y.1 y.2).1, toT := T } dn' cur' := by
  by_cases h13 : is13 y.1 = true
  · rw [send13_yes h13]
    have hn : newSent s.dc { d with flight := some (y.2, y.1) } = [⟨y.2, [], [], y.1⟩] := by
      simp [newSent, hsf, hh]
    rw [hn]
    refine ⟨dn, [y], .inr (.inr (.inl ⟨none, hph, rfl, ?_⟩)), ?_, ?_, ?_, hsaid⟩
    · simp only [List.map_append, List.filter_append, hreq]
      simp [h13]
    · intro f hf
      simp only [Option.some.injEq] at hf
      subst hf
      exact h13
    · rw [← heq]; simp
    · intro _; rw [← heq]; simp
  · rw [send13_no h13]
    have hn : newSent s.dc { d with rest := d.rest ++ [⟨y.2, 6, []⟩] } = [] := newSent_keep (by simp [hh]) (.inr hdf)
    rw [hn]
    refine ⟨dn ++ [y], [], .inr (.inr (.inl ⟨none, hph, by simp [hdf], ?_⟩)), ?_, ?_, ?_, ?_⟩
    · simp only [List.append_nil, List.filter_append, hreq]
      simp [h13]
    · intro f hf
      simp only [hdf] at hf
      cases hf
    · rw [← heq]; simp
    · intro _; rw [← heq]; simp
    · exact hsaid.snoc rfl (fun h => by simp at h) (fun _ => ⟨rfl, .inr (.inr rfl)⟩)

theorem Pos.step {absMax : Nat} {t0 : Tgt13 σ} {used : List Nat} {cs : List (Bytes × Nat)} {s s' : World (Tgt13 σ)} {ev : WEv}
    {dn cur : List (Bytes × Nat)} (hI : I13 exec t0 used cs s) (h : Pos cs s dn cur) (ht : TimelyEv s used ev)
    (hs : s.step (Tgt13.recv exec) absMax ev = some s') : ∃ dn' cur', Pos (cs ++ casts [ev]) s' dn' cur' := by
  obtain ⟨⟨taken, hc, -, -⟩, S, E, A, hD⟩ := hI
  have hmode : s.dc.h.mode = .normal := by rw [hc.h]
  cases ev with
  | cast pkt pid =>
    simp only [World.step, World.proc, DC.step] at hs
    cases hg : s.dc.gone with
    | true =>
      rw [hg, if_pos rfl] at hs
      simp only [newSent_keep (d := s.dc) (d' := s.dc) (by rw [hc.h]) (.inl rfl), List.append_nil, List.map_nil, Option.some.injEq] at hs
      subst hs
      exact ⟨dn, cur, h.phase, h.fl, h.box.trans (List.prefix_append _ _), (fun hx => absurd hx (by rw [hg]; decide)), h.said⟩
    | false =>
      rw [hg, if_neg (by simp)] at hs
      simp only [newSent_keep (d := s.dc) (d' := { s.dc with inbox := s.dc.inbox ++ [(pkt, pid)] }) (by simp [hc.h]) (.inl rfl), List.append_nil,
        List.map_nil, Option.some.injEq] at hs
      subst hs
      have : dn ++ cur ++ (s.dc.inbox ++ [(pkt, pid)]) = cs ++ casts [.cast pkt pid] := by rw [← h.all hg]; simp [casts]
      exact ⟨dn, cur, h.phase, h.fl, by rw [this]; exact List.prefix_refl _, fun _ => this, h.said⟩
  | take =>
    simp only [World.step, World.proc, DC.step] at hs
    cases hg : s.dc.gone with
    | true => simp [hg] at hs
    | false =>
      have heq := h.all hg
      simp only [hg, Bool.false_eq_true, if_false, DC.take] at hs
      cases hi : s.dc.inbox with
      | nil => simp [hi] at hs
      | cons y r =>
        rw [hi] at heq
        simp only [hi] at hs
        rcases h.phase with ⟨hp, hcu, hdn, hsn⟩ | ⟨v, l, pkt, pid, hp, hcu, hdn, hsn⟩ | ⟨n, hp, hcu, hreq⟩ | ⟨hp, hreq⟩
        · have hfl : s.dc.flight = none := hc.flight (by simp [hp])
          simp only [hp] at hs
          subst hcu hdn
          simp only [List.nil_append] at heq
          cases hv : firstVersion y.1 with
          | none =>
            simp only [hv] at hs
            simp only [newSent_keep (d := s.dc) (d' := { s.dc with phase := .failed y.2, inbox := r }) (by simp [hc.h]) (.inl rfl),
              List.append_nil, List.map_nil, Option.some.injEq] at hs
            subst hs
            refine ⟨[], [y], .inr (.inr (.inr ⟨.inr ⟨_, rfl⟩, by simp [hsn]⟩)), h.fl, ?_, ?_, h.said⟩
            · rw [← heq]; simp [casts]
            · intro _; rw [← heq]; simp [casts]
          | some v =>
            simp only [hv] at hs
            simp only [newSent_keep (d := s.dc) (d' := { s.dc with phase := .asking v 5 y.1 y.2, inbox := r }) (by simp [hc.h]) (.inl rfl),
              List.append_nil, Option.some.injEq, hsn, List.length_nil] at hs
            subst hs
            refine ⟨[], [y], .inr (.inl ⟨v, 5, y.1, y.2, rfl, rfl, rfl, rfl⟩), h.fl, ?_, ?_, h.said⟩
            · rw [← heq]; simp [casts]
            · intro _; rw [← heq]; simp [casts]
        · simp only [hp] at hs; cases hs
        · simp only [hp] at hs
          cases n with
          | some n => simp at hs
          | none =>
            simp only at hs
            by_cases hfl : s.dc.flight = none
            · rw [if_pos hfl] at hs
              simp only [hfl, Option.map_none, Option.toList_none] at hcu
              subst hcu
              simp only [List.append_nil] at hreq heq
              simp only [Option.some.injEq] at hs
              subst hs
              rw [show cs ++ casts [WEv.take] = cs by simp [casts]]
              exact Pos.send (d := { s.dc with phase := .one none, inbox := r }) hreq h.said rfl hc.h hfl hfl heq
            · rw [if_neg hfl] at hs; cases hs
        · rw [(gone_phase hmode).mpr hp] at hg; cases hg
  | toTarget i junk =>
    simp only [World.step] at hs
    cases hd : s.toT[i]? with
    | none => simp [hd] at hs
    | some d =>
      simp only [hd] at hs
      split at hs
      · simp only [Option.some.injEq] at hs
        subst hs
        rw [show cs ++ casts [WEv.toTarget i junk] = cs by simp [casts]]
        exact ⟨dn, cur, h.phase, h.fl, h.box, h.all, h.said.mono fun x hx => List.mem_append_left _ hx⟩
      · cases hs
  | toHub i =>
    rw [show cs ++ casts [WEv.toHub i] = cs by simp [casts]]
    simp only [World.step] at hs
    cases hd : s.toH[i]? with
    | none => simp [hd] at hs
    | some d =>
      have hl := ht d hd
      have hmem := List.mem_of_getElem? hd
      simp only [hd, World.proc, DC.step] at hs
      cases hg : s.dc.gone with
      | true => simp [hg] at hs
      | false =>
        have heq := h.all hg
        simp only [hg, Bool.false_eq_true, if_false, DC.udp] at hs
        rcases h.phase with ⟨hp, hcu, hdn, hsn⟩ | ⟨v, l, pkt, pid, hp, hcu, hdn, hsn⟩ | ⟨n, hp, hcu, hreq⟩ | ⟨hp, hreq⟩
        · simp only [hp] at hs; cases hs
        · have hfl : s.dc.flight = none := hc.flight (by simp [hp])
          have h0 : d.2.take 4 = [0xfc, 0, 0, 0x10] := by
            obtain ⟨_, ⟨_, h⟩ | ⟨x, hx, _⟩⟩ := hD.toH d hmem
            · exact h
            · rw [hD.zero hsn] at hx; cases hx
          have hta : askTakes d.2 = true := by simp [askTakes, h0]
          simp only [hp] at hs
          rw [if_pos hta, if_pos h0] at hs
          simp only [Option.some.injEq] at hs
          subst hs hcu hdn
          simp only [List.nil_append, List.singleton_append] at heq
          exact Pos.send (d := { s.dc with phase := .one none }) (y := (pkt, pid)) (by rw [hsn]; rfl) h.said rfl hc.h hfl hfl heq
        · simp only [hp] at hs
          unfold DC.forward13 at hs
          cases hfl : s.dc.flight with
          | none =>
            simp only [hfl] at hs
            rw [newSent_keep (by simp [hc.h]) (.inl (by first | rfl | simp [hfl]))] at hs
            simp only [List.append_nil, List.map_nil, Option.some.injEq] at hs
            subst hs
            refine ⟨dn, cur, .inr (.inr (.inl ⟨none, rfl, by rw [hcu, hfl], hreq⟩)), ?_, h.box, fun _ => heq, h.said⟩
            intro f hf; cases hf
          | some f =>
            simp only [hfl] at hs
            rw [newSent_keep (by simp [hc.h]) (.inr rfl)] at hs
            simp only [List.append_nil, List.map_nil, Option.some.injEq] at hs
            subst hs
            simp only [hfl, Option.map_some, Option.toList_some] at hcu
            subst hcu
            have h13 := h.fl f hfl
            refine ⟨dn ++ [(f.2, f.1)], [], .inr (.inr (.inl ⟨none, rfl, rfl, by simpa using hreq⟩)), ?_, ?_, ?_, ?_⟩
            · intro f' hf'; cases hf'
            · simpa using h.box
            · intro _; simpa using heq
            · refine h.said.snoc rfl (fun _ => ⟨h13, ?_⟩) (fun hc => absurd rfl hc)
              have hlen := congrArg List.length hreq
              rw [List.filter_append, List.length_map, List.length_append] at hlen
              simp only [List.filter_cons, h13, if_true, List.filter_nil, List.length_singleton] at hlen
              rw [n13, ← hlen, ← hl]
              exact hmem
        · rw [(gone_phase hmode).mpr hp] at hg; cases hg
  | timeout =>
    rw [show cs ++ casts [WEv.timeout] = cs by simp [casts]]
    simp only [World.step, World.proc, DC.step] at hs
    cases hg : s.dc.gone with
    | true => simp [hg] at hs
    | false =>
      have heq := h.all hg
      simp only [hg, Bool.false_eq_true, if_false, DC.timeout] at hs
      rcases h.phase with ⟨hp, hcu, hdn, hsn⟩ | ⟨v, l, pkt, pid, hp, hcu, hdn, hsn⟩ | ⟨n, hp, hcu, hreq⟩ | ⟨hp, hreq⟩
      · simp only [hp] at hs; cases hs
      · have hfl : s.dc.flight = none := hc.flight (by simp [hp])
        simp only [hp] at hs
        subst hcu hdn
        by_cases hl : l = 1
        · rw [if_pos hl] at hs
          simp only [newSent_keep (d := s.dc) (d' := s.dc.refuse pid 3) (by simp [DC.refuse, DC.drain, hc.h]) (.inl rfl),
            List.append_nil, List.map_nil, Option.some.injEq] at hs
          subst hs
          refine ⟨[(pkt, pid)] ++ s.dc.inbox, [], .inr (.inr (.inr ⟨.inl rfl, by simp [hsn]⟩)), ?_, ?_, ?_, ?_⟩
          · intro f hf; simp [DC.refuse, DC.drain, hfl] at hf
          · rw [← heq]; simp [DC.refuse, DC.drain]
          · intro _; rw [← heq]; simp [DC.refuse, DC.drain]
          · exact (h.said.snoc (r := (pkt, pid)) (m := ⟨pid, 3, []⟩) rfl (fun h => by simp at h) (fun _ => ⟨rfl, .inr (.inl rfl)⟩)).drain
              (.inr (.inl rfl)) s.dc.inbox
        · rw [if_neg hl] at hs
          simp only [newSent_keep (d := s.dc) (d' := { s.dc with phase := .asking v (l - 1) pkt pid }) (by simp [hc.h]) (.inl rfl),
            List.append_nil, Option.some.injEq, hsn, List.length_nil] at hs
          subst hs
          exact ⟨[], [(pkt, pid)], .inr (.inl ⟨v, l - 1, pkt, pid, rfl, rfl, rfl, rfl⟩), h.fl, h.box, fun _ => heq, h.said⟩
      · simp only [hp] at hs
        cases hfl : s.dc.flight with
        | none =>
          simp only [hfl] at hs
          simp only [hfl, Option.map_none, Option.toList_none] at hcu
          subst hcu
          by_cases hi : s.dc.inbox = []
          · rw [if_pos hi] at hs
            simp only at hs
            rw [newSent_keep (by simp [hc.h]) (.inr (by first | rfl | simp [hfl]))] at hs
            simp only [List.append_nil, List.map_nil, Option.some.injEq] at hs
            subst hs
            refine ⟨dn, [], .inr (.inr (.inr ⟨.inl rfl, by rw [hreq, List.append_nil]; exact List.prefix_refl _⟩)), ?_, h.box, fun _ => heq, h.said⟩
            intro f hf
            simp only [hfl] at hf
            cases hf
          · rw [if_neg hi] at hs; cases hs
        | some f =>
          simp only [hfl] at hs
          simp only [hfl, Option.map_some, Option.toList_some] at hcu
          subst hcu
          cases n with
          | none =>
            simp only at hs
            rw [newSent_keep (by simp [hc.h]) (.inl (by first | rfl | simp [hfl]))] at hs
            simp only [List.append_nil, List.map_nil, Option.some.injEq] at hs
            subst hs
            exact ⟨dn, [(f.2, f.1)], .inr (.inr (.inl ⟨some 0, rfl, by simp [hfl], hreq⟩)), fun f' hf' => h.fl f' (by rw [hfl]; exact hf'), h.box, fun _ => heq, h.said⟩
          | some k =>
            simp only at hs
            by_cases hk : k + 1 = 3
            · rw [if_pos hk] at hs
              simp only at hs
              rw [newSent_keep (by simp [DC.drain, hc.h]) (.inr rfl)] at hs
              simp only [List.append_nil, List.map_nil, Option.some.injEq] at hs
              subst hs
              refine ⟨dn ++ [(f.2, f.1)] ++ s.dc.inbox, [], .inr (.inr (.inr ⟨.inl rfl, ?_⟩)), ?_, ?_, ?_, ?_⟩
              · simp only [DC.drain]
                rw [hreq, List.filter_append (l₁ := dn ++ [(f.2, f.1)])]
                exact List.prefix_append _ _
              · intro f' hf'; simp [DC.drain] at hf'
              · rw [← heq]; simp [DC.drain]
              · intro _; rw [← heq]; simp [DC.drain]
              · exact (h.said.snoc (r := (f.2, f.1)) (m := ⟨f.1, 1, []⟩) rfl (fun h => by simp at h) (fun _ => ⟨rfl, .inl rfl⟩)).drain
                  (.inl rfl) s.dc.inbox
            · rw [if_neg hk] at hs
              simp only at hs
              rw [newSent_keep (by simp [hc.h]) (.inl (by first | rfl | simp [hfl]))] at hs
              simp only [List.append_nil, List.map_nil, Option.some.injEq] at hs
              subst hs
              exact ⟨dn, [(f.2, f.1)], .inr (.inr (.inl ⟨some (k + 1), rfl, by simp [hfl], hreq⟩)), fun f' hf' => h.fl f' (by rw [hfl]; exact hf'), h.box, fun _ => heq, h.said⟩
      · rw [(gone_phase hmode).mpr hp] at hg; cases hg

theorem Pos.run {absMax : Nat} {t0 : Tgt13 σ} (hst : ∀ st, (exec st statusReq13).2.take 4 = [0xfc, 0, 0, 0x10]) (es : List WEv) :
    ∀ (used : List Nat) (cs : List (Bytes × Nat)) (s s' : World (Tgt13 σ)) (dn cur : List (Bytes × Nat)), I13 exec t0 used cs s → Pos cs s dn cur →
    Timely (Tgt13.recv exec) absMax s used es = true → s.run (Tgt13.recv exec) absMax es = some s' →
    ∃ used' dn' cur', I13 exec t0 used' (cs ++ casts es) s' ∧ Pos (cs ++ casts es) s' dn' cur' := by
  induction es with
  | nil =>
    intro used cs s s' dn cur h hP _ hr
    simp only [World.run, Option.some.injEq] at hr
    subst hr
    exact ⟨used, dn, cur, by simpa [casts] using h, by simpa [casts] using hP⟩
  | cons e es ih =>
    intro used cs s s' dn cur h hP ht hr
    simp only [World.run] at hr
    cases hs : s.step (Tgt13.recv exec) absMax e with
    | none => simp [hs] at hr
    | some s1 =>
      simp only [hs] at hr
      simp only [Timely, hs, Bool.and_eq_true] at ht
      have hev : TimelyEv s used e := by
        cases e with
        | toTarget i junk =>
          intro d hd
          simpa [hd] using ht.1
        | toHub i =>
          intro d hd
          simpa [hd] using ht.1
        | _ => trivial
      have h1 := I13.step hst h hev hs
      obtain ⟨dn1, cur1, hP1⟩ := Pos.step h hP hev hs
      have := ih (usedAfter used e) _ s1 s' dn1 cur1 h1 hP1 (by cases e <;> exact ht.2) hr
      have hca : casts (e :: es) = casts [e] ++ casts es := by cases e <;> simp [casts]
      rw [hca, ← List.append_assoc]
      exact this

theorem nth_filter {α : Type} (f : α → Bool) : ∀ (l : List α) (i : Nat) (x : α), l[i]? = some x → f x = true →
    (l.filter f)[((l.take i).filter f).length]? = some x := by
  intro l
  induction l with
  | nil => intro i x h; simp at h
  | cons a l ih =>
    intro i x h hx
    cases i with
    | zero =>
      simp only [List.getElem?_cons_zero, Option.some.injEq] at h
      subst h
      simp [hx]
    | succ i =>
      have := ih i x (by simpa using h) hx
      by_cases ha : f a = true
      · simpa [ha] using this
      · simpa [ha] using this

/-- **C56, the order.** Of the requests cast to the device client, in their order, the first so many are answered as it has sent messages:
message by message, in this order, each to the client of its request. A message is an error code, or it has the reply of the target to this
very request: the one that is executed as the so-and-so-many-th of the IPbus 1.3 packets (`x.k`). -/
theorem C56_order_partial {absMax : Nat} {t0 : Tgt13 σ} (hst : ∀ st, (exec st statusReq13).2.take 4 = [0xfc, 0, 0, 0x10]) {es : List WEv}
    {s : World (Tgt13 σ)} (ht : Timely (Tgt13.recv exec) absMax (World.init t0) [] es = true)
    (hr : (World.init t0).run (Tgt13.recv exec) absMax es = some s) :
    ∃ (S : List (Bytes × Bytes)) (E : List Done) (dn : List (Bytes × Nat)),
      (∀ x ∈ S, x.1 = statusReq13) ∧
      E.Pairwise (fun x y => x.k < y.k) ∧ (∀ x ∈ E, (casts13 es)[x.k]? = some (x.pkt, x.pid)) ∧
      s.tgt.log = t0.log ++ (S ++ E.map fun x => (x.pkt, x.reply)) ∧
      s.tgt.st = final exec t0.st ((S ++ E.map fun x => (x.pkt, x.reply)).map (·.1)) ∧
      (S ++ E.map fun x => (x.pkt, x.reply)).map (·.2) = replies exec t0.st ((S ++ E.map fun x => (x.pkt, x.reply)).map (·.1)) ∧
      dn <+: casts es ∧ s.dc.msgs.length = dn.length ∧
      ∀ (i : Nat) (m : Msg) (r : Bytes × Nat), s.dc.msgs[i]? = some m → dn[i]? = some r → m.pid = r.2 ∧
        ((m.code = 0 ∧ is13 r.1 = true ∧ ∃ x ∈ E, x.k = n13 (dn.take i) ∧ x.pkt = r.1 ∧ x.pid = r.2 ∧ x.reply = m.pkt) ∨
         (m.pkt = [] ∧ (m.code = 1 ∨ m.code = 3 ∨ m.code = 6))) := by
  obtain ⟨used, dn, cur, ⟨⟨taken, hc, hpre, _⟩, S, E, A, hD⟩, hP⟩ := Pos.run hst es [] [] _ s [] [] (I13.init t0) (Pos.init t0) ht hr
  rw [List.nil_append] at hpre hP
  have hsent : s.sent.map (fun f => (f.body, f.pid)) <+: (dn ++ cur).filter fun r => is13 r.1 := by
    rcases hP.phase with ⟨_, _, _, h⟩ | ⟨_, _, _, _, _, _, _, h⟩ | ⟨_, _, _, h⟩ | ⟨_, h⟩
    · rw [h]; simp
    · rw [h]; simp
    · rw [h]; exact List.prefix_refl _
    · rw [List.filter_append]; exact h.trans (List.prefix_append _ _)
  have hmsgs : s.dc.msgs = s.dc.rest := by simp [DC.msgs, hc.h]
  refine ⟨S, E, dn, hD.status, hD.exOrd, ?_, hD.log, hD.st, hD.reps, ?_, ?_, ?_⟩
  · intro x hx
    obtain ⟨f, h1, h2, h3⟩ := hD.exLt x hx
    refine prefix_get (hsent.trans (((List.prefix_append _ _).trans hP.box).filter _)) ?_
    rw [List.getElem?_map, h1, ← h2, ← h3]
    rfl
  · exact (List.prefix_append dn (cur ++ s.dc.inbox)).trans (by rw [← List.append_assoc]; exact hP.box)
  · rw [hmsgs, hP.said.len]
  · intro i m r hm hr'
    rw [hmsgs] at hm
    obtain ⟨h1, h2, h3⟩ := hP.said.each i m r hm hr'
    refine ⟨h1, ?_⟩
    by_cases h0 : m.code = 0
    · obtain ⟨h13, hH⟩ := h2 h0
      refine .inl ⟨h0, h13, ?_⟩
      obtain ⟨_, ⟨hz, _⟩ | ⟨x, hx, hk, hrep⟩⟩ := hD.toH _ hH
      · simp only at hz; omega
      · simp only at hk hrep
        have hk' : x.k = n13 (dn.take i) := by omega
        obtain ⟨f, g1, g2, g3⟩ := hD.exLt x hx
        have hil := (List.getElem?_eq_some_iff.1 hr').1
        have h4 : (s.sent.map fun f => (f.body, f.pid))[x.k]? = some (x.pkt, x.pid) := by
          rw [List.getElem?_map, g1, ← g2, ← g3]; rfl
        have h5 := prefix_get hsent h4
        have h6 := nth_filter (fun r : Bytes × Nat => is13 r.1) (dn ++ cur) i r (by rw [List.getElem?_append_left hil]; exact hr') h13
        rw [List.take_append_of_le_length (by omega)] at h6
        rw [hk', n13, h6] at h5
        simp only [Option.some.injEq] at h5
        exact ⟨x, hx, hk', by rw [h5], by rw [h5], hrep.symm⟩
    · exact .inr (h3 h0)

end

/-- The run of C56: the third request is answered with an error code. -/
example := fun s (hr : (World.init ⟨40, []⟩).run (Tgt13.recv count13) 16 run13 = some s) =>
  C56_order_partial (exec := count13) (absMax := 16) (t0 := ⟨40, []⟩) (fun st => by rw [count13, if_pos rfl]; rfl) (es := run13)
    (by decide +kernel) hr

end Verif.Hub
