import Verif.Lemmas.TraMgr
/-!
# A connection and its device client: lemmas
-/

set_option autoImplicit false
set_option linter.unusedSimpArgs false

namespace Verif.TraMgr
open Verif.Hub (Bytes Sys Msg controlRequests isControl Prompt)

section
variable {σ : Type} {exec : σ → Bytes → σ × Bytes}

/-! ## More about the device client -/

theorem controlRequests_append (l m : List Hub.Ev) : controlRequests (l ++ m) = controlRequests l ++ controlRequests m := by
  induction l with
  | nil => rfl
  | cons e l ih => rw [List.cons_append, Hub.controlRequests_cons, Hub.controlRequests_cons e l, ih, List.append_assoc]

theorem dc_run_append (l m : List Hub.Ev) : ∀ (s : Sys σ), s.run exec (l ++ m) = (s.run exec l).bind fun s => s.run exec m := by
  induction l with
  | nil => intro s; rfl
  | cons e l ih =>
    intro s
    simp only [List.cons_append, Sys.run]
    cases s.step exec e with
    | none => rfl
    | some s1 => exact ih s1

theorem prompt_append {L : Nat} (l m : List Hub.Ev) : ∀ (s : Sys σ), Prompt exec L s (l ++ m) → Prompt exec L s l := by
  induction l with
  | nil => intro s _; rfl
  | cons e l ih =>
    intro s h
    simp only [List.cons_append, Prompt, Bool.and_eq_true] at h ⊢
    refine ⟨h.1, ?_⟩
    cases hs : s.step exec e with
    | none => rfl
    | some s1 => simp only [hs] at h; exact ih s1 h.2

/-- Messages are only added, and code 6 is for packets that are no control packets. -/
theorem out_step {s s' : Sys σ} {ev : Hub.Ev} (hs : s.step exec ev = some s') :
    ∃ more, s'.hub.out = s.hub.out ++ more ∧
      ∀ m ∈ more, m.code = 6 → ∃ pkt, ev = .request pkt m.pid ∧ isControl pkt = false := by
  have fwd : ∀ (h : Hub.Hub) (p : Bytes), ∃ more, (h.forward p).out = h.out ++ more ∧ ∀ m ∈ more, m.code ≠ 6 := by
    intro h p
    cases hq : h.q with
    | nil => exact ⟨[], by rw [Hub.forward_nil hq]; simp⟩
    | cons f q =>
      rw [Hub.forward_cons hq]
      split
      · exact ⟨[], by simp⟩
      · split
        · exact ⟨[_], rfl, by simp⟩
        · exact ⟨[], by simp⟩
  have give : ∀ (h : Hub.Hub) (c : Nat), c ≠ 6 → ∃ more, (h.giveUp c).out = h.out ++ more ∧ ∀ m ∈ more, m.code ≠ 6 := by
    intro h c hc
    refine ⟨_, rfl, ?_⟩
    intro m hm
    obtain ⟨f, _, rfl⟩ := List.mem_map.mp hm
    exact hc
  have weaken : ∀ {o : List Msg}, (∃ more, o = s.hub.out ++ more ∧ ∀ m ∈ more, m.code ≠ 6) →
      ∃ more, o = s.hub.out ++ more ∧ ∀ m ∈ more, m.code = 6 → ∃ pkt, ev = .request pkt m.pid ∧ isControl pkt = false := by
    rintro o ⟨more, h1, h2⟩
    exact ⟨more, h1, fun m hm h6 => absurd h6 (h2 m hm)⟩
  cases ev with
  | request pkt pid =>
    simp only [Sys.step] at hs
    split at hs
    · simp only [Option.some.injEq] at hs
      subst hs
      have key : (∃ en, Hub.parseControl pkt = .v2 en) ∨ isControl pkt = false := by
        cases hc : isControl pkt with
        | true => exact .inl ((Hub.parseControl_v2 pkt).mpr hc)
        | false => exact .inr rfl
      rcases key with ⟨en, h⟩ | h
      · exact ⟨[], by simp [Hub.Hub.sendRequest, h]⟩
      · refine ⟨[⟨pid, 6, []⟩], ?_, ?_⟩
        · cases hp : Hub.parseControl pkt with
          | v2 en => rw [(Hub.parseControl_v2 pkt).mp ⟨en, hp⟩] at h; cases h
          | v1 en => simp [Hub.Hub.sendRequest, hp]
          | invalid => simp [Hub.Hub.sendRequest, hp]
        · intro m hm _
          simp at hm; subst hm
          exact ⟨pkt, rfl, h⟩
    · cases hs
  | toTarget i junk =>
    simp only [Sys.step] at hs
    cases hd : s.toT[i]? with
    | none => simp [hd] at hs
    | some d =>
      simp only [hd] at hs
      split at hs
      · simp only [Option.some.injEq] at hs; subst hs; exact ⟨[], by simp⟩
      · cases hs
  | toHub i =>
    simp only [Sys.step] at hs
    cases hd : s.toH[i]? with
    | none => simp [hd] at hs
    | some d =>
      simp only [hd] at hs
      split at hs
      · simp only [Option.some.injEq] at hs
        subst hs
        apply weaken
        simp only [Hub.Hub.recv]
        split
        · exact fwd _ _
        · split
          · exact ⟨[], by simp⟩
          · split
            · exact ⟨[], by simp⟩
            · exact give _ _ (by simp)
            · split
              · exact ⟨[], by simp⟩
              · split <;> exact ⟨[], by simp⟩
        · exact fwd _ _
        · exact ⟨[], by simp⟩
        · exact ⟨[], by simp⟩
      · cases hs
  | timeout =>
    simp only [Sys.step] at hs
    split at hs
    · cases hs
    simp only [Option.some.injEq] at hs
    subst hs
    apply weaken
    simp only [Hub.Hub.timeout]
    split
    · split <;> exact ⟨[], by simp⟩
    · split
      · exact give _ _ (by simp)
      · exact ⟨[], by simp⟩
    · split
      · exact give _ _ (by split <;> simp)
      · exact ⟨[], by simp⟩
    · exact ⟨[], by simp⟩
    · exact ⟨[], by simp⟩

/-- A target that answers status requests as it should never causes error code 5. -/
theorem no5_step {t0 : Hub.Tgt σ} {w : Nat} {s s' : Sys σ} {lo e : Nat} (h : Hub.Inv exec t0 w s lo e) {ev : Hub.Ev}
    (hs : s.step exec ev = some s') (h5 : ∀ m ∈ s.hub.out, m.code ≠ 5) : ∀ m ∈ s'.hub.out, m.code ≠ 5 := by
  have fwd : ∀ (hub : Hub.Hub) (p : Bytes), hub.out = s.hub.out → ∀ m ∈ (hub.forward p).out, m.code ≠ 5 := by
    intro hub p ho
    cases hq : hub.q with
    | nil => rw [Hub.forward_nil hq, ho]; exact h5
    | cons f q =>
      rw [Hub.forward_cons hq]
      split
      · rw [ho]; exact h5
      · split
        · intro m hm
          simp only [ho, List.mem_append, List.mem_singleton] at hm
          rcases hm with hm | rfl
          · exact h5 m hm
          · simp
        · rw [ho]; exact h5
  have give : ∀ (c : Nat), c ≠ 5 → ∀ m ∈ (s.hub.giveUp c).out, m.code ≠ 5 := by
    intro c hc m hm
    simp only [Hub.Hub.giveUp, List.mem_append, List.mem_map] at hm
    rcases hm with hm | ⟨f, _, rfl⟩
    · exact h5 m hm
    · exact hc
  cases ev with
  | request pkt pid =>
    simp only [Sys.step] at hs
    split at hs
    · simp only [Option.some.injEq] at hs
      subst hs
      simp only [Hub.Hub.sendRequest]
      split
      · exact h5
      · intro m hm
        rcases List.mem_append.mp hm with hm | hm
        · exact h5 m hm
        · simp at hm; subst hm; simp
    · cases hs
  | toTarget i junk =>
    simp only [Sys.step] at hs
    cases hd : s.toT[i]? with
    | none => simp [hd] at hs
    | some d =>
      simp only [hd] at hs
      split at hs
      · simp only [Option.some.injEq] at hs; subst hs; exact h5
      · cases hs
  | toHub i =>
    simp only [Sys.step] at hs
    cases hd : s.toH[i]? with
    | none => simp [hd] at hs
    | some d =>
      simp only [hd] at hs
      split at hs
      · rename_i htk
        simp only [Option.some.injEq] at hs
        subst hs
        cases hm : s.hub.mode with
        | normal => simp only [Hub.Hub.recv, hm]; exact fwd _ _ rfl
        | resent n lost => simp only [Hub.Hub.recv, hm]; exact fwd _ _ rfl
        | stopped => simp only [Hub.Hub.recv, hm]; exact h5
        | crashed => simp only [Hub.Hub.recv, hm]; exact h5
        | status n left =>
          simp only [Hub.Hub.recv, hm]
          simp only [Hub.Hub.takes, hm] at htk
          rcases (h.toH d (List.mem_of_getElem? hd)).2 with ⟨t, junk, hj, hst⟩ | ⟨k, f, r, hk, hr, hke, hdk, hpk⟩
          · split
            · exact h5
            · simp only [hst, Hub.parseStatus_status t junk hj]
              split
              · exact h5
              · split <;> exact h5
          · exfalso
            obtain ⟨en', hen'⟩ := h.hdrs k f hk
            have hl4 : f.hdr.length = 4 := by rw [hen', Hub.pktHeader_length]
            have ht : d.2.take 4 = f.hdr := by
              rw [hpk, List.take_append_of_le_length (by omega), List.take_of_length_le (by omega)]
            rw [ht, hen'] at htk
            simp [Hub.pktHeader_ne_status, Hub.pktHeader_ne_v1] at htk
      · cases hs
  | timeout =>
    simp only [Sys.step] at hs
    split at hs
    · cases hs
    simp only [Option.some.injEq] at hs
    subst hs
    simp only [Hub.Hub.timeout]
    split
    · split <;> exact h5
    · split
      · exact give _ (by simp)
      · exact h5
    · split
      · exact give _ (by split <;> simp)
      · exact h5
    · exact h5
    · exact h5

theorem no5_run {t0 : Hub.Tgt σ} {absMax L : Nat} (hd : 0 < t0.depth) (ha : 0 < absMax)
    (hb : L + min t0.depth absMax + 2 * t0.depth < 65535) (h0 : Hub.RecentHist t0) {es : List Hub.Ev} {s : Sys σ}
    (hp : Prompt exec L (Hub.start t0 absMax) es) (hr : (Hub.start t0 absMax).run exec es = some s) :
    ∀ m ∈ s.hub.out, m.code ≠ 5 := by
  have gen : ∀ (n : Nat) (s : Sys σ), n ≤ es.length → (Hub.start t0 absMax).run exec (es.take n) = some s →
      ∀ m ∈ s.hub.out, m.code ≠ 5 := by
    intro n
    induction n with
    | zero =>
      intro s _ hs
      simp only [List.take_zero, Sys.run, Option.some.injEq] at hs
      subst hs
      intro m hm; simp [Hub.start] at hm
    | succ n ih =>
      intro s hn hs
      have hlt : n < es.length := by omega
      rw [List.take_add_one, List.getElem?_eq_getElem hlt, Option.toList_some, dc_run_append] at hs
      cases hs1 : (Hub.start t0 absMax).run exec (es.take n) with
      | none => rw [hs1] at hs; cases hs
      | some s1 =>
        rw [hs1] at hs
        simp only [Option.bind_some, Sys.run] at hs
        cases hs2 : s1.step exec es[n] with
        | none => rw [hs2] at hs; cases hs
        | some s2 =>
          rw [hs2] at hs
          simp only [Option.some.injEq] at hs
          subst hs
          have hp' : Prompt exec L (Hub.start t0 absMax) (es.take n) := by
            apply prompt_append _ (es.drop n)
            rw [List.take_append_drop]; exact hp
          obtain ⟨⟨lo, e, hinv⟩, _⟩ := Hub.run_facts hd ha hb h0 hp' hs1
          exact no5_step hinv hs2 (ih s1 (by omega) hs1)
  have := gen es.length s (Nat.le_refl _)
  rw [List.take_length] at this
  exact this hr

/-! ## The connection -/

/-- The messages for one connection. -/
def mine (me : Nat) (out : List Msg) : List Msg := out.filter fun m => m.pid = me

/-- A message as it reaches the transaction manager. -/
def toResp (a : Addr) (m : Msg) : Resp := ⟨a, m.code, m.pkt⟩

/-- The packets of the connection that the device client has accepted. -/
def ownRequests (me : Nat) (evs : List Hub.Ev) : List Bytes := ((controlRequests evs).filter fun r => r.2 = me).map (·.1)

/-- What holds when the chunks `cs` have arrived. -/
structure WInv (exec : σ → Bytes → σ × Bytes) (t0 : Hub.Tgt σ) (absMax me p : Nat) (a : Addr) (cs : List (List Bytes))
    (w : World σ) : Prop where
  run : (Hub.start t0 absMax).run exec w.evs = some w.dc
  casts : w.tm.casts = cs.flatten.map fun x => (p, x)
  taken : w.taken ≤ cs.flatten.length
  own : ownRequests me w.evs = cs.flatten.take w.taken
  six : ∀ m ∈ w.dc.hub.out, m.code = 6 → m.pid ≠ me
  got : w.got ≤ (mine me w.dc.hub.out).length
  tm : ∃ g rem pend, Inv a (cs.map (·.length)) (((mine me w.dc.hub.out).take w.got).map (toResp a)) w.tm g rem pend

theorem WInv.init (t0 : Hub.Tgt σ) (absMax me p : Nat) (a : Addr) : WInv exec t0 absMax me p a [] (World.init t0 absMax) where
  run := rfl
  casts := rfl
  taken := Nat.le_refl _
  own := rfl
  six := by intro m hm; simp [World.init, Hub.start] at hm
  got := Nat.zero_le _
  tm := ⟨[], [], [], Inv.init a⟩

theorem mine_append (me : Nat) (l m : List Msg) : mine me (l ++ m) = mine me l ++ mine me m := List.filter_append ..

variable {t0 : Hub.Tgt σ} {absMax me p : Nat} {a : Addr} {cs : List (List Bytes)} {w w' : World σ}

/-- Something happens at the device client. -/
theorem WInv.dev (h : WInv exec t0 absMax me p a cs w) {e : Hub.Ev} (hw : w.dev exec e = some w') {k : Nat}
    (hk : w.taken + k ≤ cs.flatten.length)
    (hown : ownRequests me [e] = (cs.flatten.drop w.taken).take k)
    (hsix : ∀ pkt, e = .request pkt me → isControl pkt = true) :
    WInv exec t0 absMax me p a cs { w' with taken := w.taken + k } := by
  simp only [World.dev] at hw
  cases hs : w.dc.step exec e with
  | none => simp [hs] at hw
  | some dc =>
    simp only [hs, Option.some.injEq] at hw
    subst hw
    obtain ⟨more, hmore, h6⟩ := out_step hs
    refine ⟨?_, h.casts, hk, ?_, ?_, ?_, ?_⟩
    · simp only [dc_run_append, h.run, Option.bind_some, Sys.run, hs]
    · have : ownRequests me (w.evs ++ [e]) = ownRequests me w.evs ++ ownRequests me [e] := by
        simp only [ownRequests, controlRequests_append, List.filter_append, List.map_append]
      simp only [this, h.own, hown, List.take_add]
    · intro m hm hc hme
      simp only [hmore, List.mem_append] at hm
      rcases hm with hm | hm
      · exact h.six m hm hc hme
      · obtain ⟨pkt, rfl, hpk⟩ := h6 m hm hc
        rw [hme] at hsix
        rw [hsix pkt rfl] at hpk
        cases hpk
    · simp only [hmore, mine_append, List.length_append]
      have := h.got; omega
    · simp only [hmore, mine_append]
      rw [List.take_append_of_le_length h.got]
      exact h.tm

/-- Messages are never more than packets taken. -/
theorem WInv.few (h : WInv exec t0 absMax me p a cs w) (ht : Told w.dc) :
    (mine me w.dc.hub.out).map (·.pid) ++ w.dc.hub.waiting.filter (fun x => x = me) =
      (ownRequests me w.evs).map fun _ => me := by
  have h1 : mine me w.dc.hub.out = (answered w.dc.hub.out).filter fun m => m.pid = me := by
    simp only [mine, answered, List.filter_filter]
    apply List.filter_congr
    intro m hm
    by_cases hp : m.pid = me
    · have := h.six m hm
      simp only [hp, decide_true, Bool.true_and]
      by_cases hc : m.code = 6
      · exact absurd hp (this hc)
      · simp [hc]
    · simp [hp]
  have h2 : w.dc.accepted.map (fun f => (f.orig ++ f.body, f.pid)) = controlRequests w.evs := by
    have := Hub.run_accepted w.evs _ w.dc h.run
    simpa [Hub.start] using this
  have h3 := congrArg (List.filter fun x => decide (x = me)) ht.pids
  simp only [List.filter_append, List.filter_map] at h3
  rw [h1, ownRequests, ← h2]
  simp only [List.filter_map, List.map_map]
  have e1 : ((fun x => decide (x = me)) ∘ fun x : Msg => x.pid) = fun m => decide (m.pid = me) := rfl
  rw [e1] at h3
  rw [h3]
  have e2 : ((fun x => decide (x = me)) ∘ fun x : Hub.Flight => x.pid) = fun f => decide (f.pid = me) := rfl
  have e3 : ((fun r : Bytes × Nat => decide (r.2 = me)) ∘ fun f : Hub.Flight => (f.orig ++ f.body, f.pid)) = fun f => decide (f.pid = me) := rfl
  rw [e2, e3]
  apply List.map_congr_left
  intro f hf
  simpa using (List.mem_filter.mp hf).2

/-- The packets of a chunk: control packets of whole words, for the target of the connection. -/
def GoodChunk (ps : List Bytes) : Prop := ps ≠ [] ∧ ∀ x ∈ ps, Whole x ∧ isControl x = true

/-- The chunk that arrives, if the event is one. -/
def WEv.bin : WEv → List Bytes
  | .chunk bin => [bin]
  | _ => []

theorem WInv.step (ha : a.ok) (h : WInv exec t0 absMax me p a cs w) (hgood : ∀ c ∈ cs, GoodChunk c) {ev : WEv}
    (hw : w.step exec me p a ev = some w') (h5 : ∀ m ∈ w.dc.hub.out, m.code ≠ 5) {cs' : List (List Bytes)}
    (hgood' : ∀ c ∈ cs', GoodChunk c) (hbin : ev.bin = cs'.map (encode a)) :
    WInv exec t0 absMax me p a (cs ++ cs') w' := by
  cases ev with
  | chunk bin =>
    simp only [World.step, Option.some.injEq] at hw
    subst hw
    cases cs' with
    | nil => simp [WEv.bin] at hbin
    | cons ps rest =>
      cases rest with
      | cons _ _ => simp [WEv.bin] at hbin
      | nil =>
        simp only [WEv.bin, List.map_cons, List.map_nil, List.cons.injEq, and_true] at hbin
        subst hbin
        have hg := hgood' ps (by simp)
        obtain ⟨g, rem, pend, htm⟩ := h.tm
        obtain ⟨h1, h2⟩ := htm.chunk ha hg.1 (fun x hx => (hg.2 x hx).1) p
        refine ⟨h.run, ?_, ?_, ?_, h.six, h.got, ?_⟩
        · simp only [h2, h.casts]; simp
        · have := h.taken; rw [List.flatten_append, List.length_append]; exact Nat.le_add_right_of_le this
        · rw [h.own, List.flatten_append, List.take_append_of_le_length h.taken]
        · exact ⟨g, _, pend, by simpa using h1⟩
  | request =>
    have : cs' = [] := by cases cs' <;> simp [WEv.bin] at hbin ⊢
    subst this
    rw [List.append_nil]
    simp only [World.step] at hw
    cases hc : w.tm.casts[w.taken]? with
    | none => simp [hc] at hw
    | some c =>
      simp only [hc] at hw
      cases hd : w.dev exec (.request c.2 me) with
      | none => simp [hd] at hw
      | some w1 =>
        simp only [hd, Option.some.injEq] at hw
        subst hw
        rw [h.casts, List.getElem?_map, Option.map_eq_some_iff] at hc
        obtain ⟨x, hx, rfl⟩ := hc
        have hlt := (List.getElem?_eq_some_iff.mp hx).1
        have hctl : isControl x = true := by
          obtain ⟨ps, hps, hx'⟩ := List.mem_flatten.mp (List.mem_of_getElem? hx)
          exact ((hgood ps hps).2 x hx').2
        have ht : w1.taken = w.taken := by
          simp only [World.dev] at hd
          cases hs : w.dc.step exec (.request x me) with
          | none => simp [hs] at hd
          | some dc => simp only [hs, Option.some.injEq] at hd; subst hd; rfl
        rw [ht]
        refine h.dev hd (k := 1) (by omega) ?_ ?_
        · simp only [ownRequests, controlRequests, hctl, if_true, List.filter_cons, decide_true, List.filter_nil, List.map_cons,
            List.map_nil]
          rw [List.take_one, List.head?_drop, hx]; rfl
        · rintro pkt he
          cases he
          exact hctl
  | other pkt pid =>
    have : cs' = [] := by cases cs' <;> simp [WEv.bin] at hbin ⊢
    subst this
    rw [List.append_nil]
    simp only [World.step] at hw
    split at hw
    · cases hw
    rename_i hne
    have := h.dev hw (k := 0) (by have := h.taken; omega)
      (by simp only [ownRequests, controlRequests]; split <;> simp [hne])
      (by rintro pkt he; cases he; exact absurd rfl hne)
    have ht : w'.taken = w.taken := by
      simp only [World.dev] at hw
      cases hs : w.dc.step exec (.request pkt pid) with
      | none => simp [hs] at hw
      | some dc => simp only [hs, Option.some.injEq] at hw; subst hw; rfl
    rw [Nat.add_zero, ← ht] at this
    exact this
  | toTarget i junk =>
    have : cs' = [] := by cases cs' <;> simp [WEv.bin] at hbin ⊢
    subst this
    rw [List.append_nil]
    simp only [World.step] at hw
    have := h.dev hw (k := 0) (by have := h.taken; omega) (by simp [ownRequests, controlRequests]) (by rintro pkt he; cases he)
    have ht : w'.taken = w.taken := by
      simp only [World.dev] at hw
      cases hs : w.dc.step exec (.toTarget i junk) with
      | none => simp [hs] at hw
      | some dc => simp only [hs, Option.some.injEq] at hw; subst hw; rfl
    rw [Nat.add_zero, ← ht] at this
    exact this
  | toHub i =>
    have : cs' = [] := by cases cs' <;> simp [WEv.bin] at hbin ⊢
    subst this
    rw [List.append_nil]
    simp only [World.step] at hw
    have := h.dev hw (k := 0) (by have := h.taken; omega) (by simp [ownRequests, controlRequests]) (by rintro pkt he; cases he)
    have ht : w'.taken = w.taken := by
      simp only [World.dev] at hw
      cases hs : w.dc.step exec (.toHub i) with
      | none => simp [hs] at hw
      | some dc => simp only [hs, Option.some.injEq] at hw; subst hw; rfl
    rw [Nat.add_zero, ← ht] at this
    exact this
  | timeout =>
    have : cs' = [] := by cases cs' <;> simp [WEv.bin] at hbin ⊢
    subst this
    rw [List.append_nil]
    simp only [World.step] at hw
    have := h.dev hw (k := 0) (by have := h.taken; omega) (by simp [ownRequests, controlRequests]) (by rintro pkt he; cases he)
    have ht : w'.taken = w.taken := by
      simp only [World.dev] at hw
      cases hs : w.dc.step exec .timeout with
      | none => simp [hs] at hw
      | some dc => simp only [hs, Option.some.injEq] at hw; subst hw; rfl
    rw [Nat.add_zero, ← ht] at this
    exact this
  | response =>
    have : cs' = [] := by cases cs' <;> simp [WEv.bin] at hbin ⊢
    subst this
    rw [List.append_nil]
    simp only [World.step] at hw
    cases hm : (w.dc.hub.out.filter fun m => decide (m.pid = me))[w.got]? with
    | none => simp [hm] at hw
    | some m =>
      simp only [hm, Option.some.injEq] at hw
      have hm' : (mine me w.dc.hub.out)[w.got]? = some m := hm
      have hmem : m ∈ w.dc.hub.out := (List.mem_filter.mp (List.mem_of_getElem? hm)).1
      rw [if_neg (h5 m hmem)] at hw
      subst hw
      have hlt := (List.getElem?_eq_some_iff.mp hm').1
      have htold : Told w.dc := Told.run w.evs _ _ (Told.start t0 absMax) h.run
      have hfew := congrArg List.length (h.few htold)
      simp only [List.length_append, List.length_map, h.own, List.length_take] at hfew
      obtain ⟨g, rem, pend, htm⟩ := h.tm
      obtain ⟨hc, hex⟩ := htm.response (r := ⟨a, m.code, m.pkt⟩) rfl (by
        have e : (cs.map (·.length)).sum = cs.flatten.length := by rw [List.length_flatten]
        rw [List.length_map, List.length_take, e]
        have := h.taken
        omega)
      refine ⟨h.run, ?_, h.taken, h.own, h.six, hlt, ?_⟩
      · simp only [hc]; exact h.casts
      · simp only [List.take_add_one, hm', Option.toList_some, List.map_append, List.map_cons, List.map_nil]
        exact hex

/-- Events only add to what has happened at the device client. -/
theorem step_evs {ev : WEv} (hw : w.step exec me p a ev = some w') : ∃ more, w'.evs = w.evs ++ more := by
  have dev : ∀ e w1, w.dev exec e = some w1 → ∃ more, w1.evs = w.evs ++ more := by
    intro e w1 h
    simp only [World.dev] at h
    cases hs : w.dc.step exec e with
    | none => simp [hs] at h
    | some dc => simp only [hs, Option.some.injEq] at h; subst h; exact ⟨[e], rfl⟩
  cases ev with
  | chunk bin => simp only [World.step, Option.some.injEq] at hw; subst hw; exact ⟨[], by simp⟩
  | request =>
    simp only [World.step] at hw
    cases hc : w.tm.casts[w.taken]? with
    | none => simp [hc] at hw
    | some c =>
      simp only [hc] at hw
      cases hd : w.dev exec (.request c.2 me) with
      | none => simp [hd] at hw
      | some w1 => simp only [hd, Option.some.injEq] at hw; subst hw; have := dev _ w1 hd; exact this
  | other pkt pid =>
    simp only [World.step] at hw
    split at hw
    · cases hw
    · exact dev _ _ hw
  | toTarget i junk => exact dev _ _ hw
  | toHub i => exact dev _ _ hw
  | timeout => exact dev _ _ hw
  | response =>
    simp only [World.step] at hw
    cases hm : (w.dc.hub.out.filter fun m => decide (m.pid = me))[w.got]? with
    | none => simp [hm] at hw
    | some m => simp only [hm, Option.some.injEq] at hw; subst hw; exact ⟨[], by simp⟩

theorem run_evs (es : List WEv) : ∀ (w w' : World σ), w.run exec me p a es = some w' → ∃ more, w'.evs = w.evs ++ more := by
  induction es with
  | nil => intro w w' h; simp only [World.run, Option.some.injEq] at h; subst h; exact ⟨[], by simp⟩
  | cons e es ih =>
    intro w w' h
    simp only [World.run] at h
    cases hs : w.step exec me p a e with
    | none => simp [hs] at h
    | some w1 =>
      simp only [hs] at h
      obtain ⟨m1, h1⟩ := step_evs hs
      obtain ⟨m2, h2⟩ := ih w1 w' h
      exact ⟨m1 ++ m2, by rw [h2, h1, List.append_assoc]⟩

/-- The messages from the client. -/
def bins (es : List WEv) : List Bytes := es.flatMap WEv.bin

theorem WInv.runAll (ha : a.ok) {L : Nat} (hd : 0 < t0.depth) (hmx : 0 < absMax) (hb : L + min t0.depth absMax + 2 * t0.depth < 65535)
    (h0 : Hub.RecentHist t0) (es : List WEv) : ∀ (cs cs' : List (List Bytes)) (w w' : World σ),
    WInv exec t0 absMax me p a cs w → (∀ c ∈ cs, GoodChunk c) → (∀ c ∈ cs', GoodChunk c) → bins es = cs'.map (encode a) →
    w.run exec me p a es = some w' → Prompt exec L (Hub.start t0 absMax) w'.evs → WInv exec t0 absMax me p a (cs ++ cs') w' := by
  induction es with
  | nil =>
    intro cs cs' w w' h _ _ hb' hr _
    have : cs' = [] := by cases cs' <;> simp [bins] at hb' ⊢
    subst this
    simp only [World.run, Option.some.injEq] at hr
    subst hr
    simpa using h
  | cons e es ih =>
    intro cs cs' w w' h hg hg' hb' hr hp
    simp only [World.run] at hr
    cases hs : w.step exec me p a e with
    | none => simp [hs] at hr
    | some w1 =>
      simp only [hs] at hr
      obtain ⟨m1, h1⟩ := step_evs hs
      obtain ⟨m2, h2⟩ := run_evs es w1 w' hr
      have hp1 : Prompt exec L (Hub.start t0 absMax) w.evs := by
        apply prompt_append _ (m1 ++ m2)
        rw [← List.append_assoc, ← h1, ← h2]; exact hp
      have h5 := no5_run hd hmx hb h0 hp1 h.run
      obtain ⟨c1, c2, hc, hc1, hc2⟩ : ∃ c1 c2, cs' = c1 ++ c2 ∧ e.bin = c1.map (encode a) ∧ bins es = c2.map (encode a) := by
        have hcons : bins (e :: es) = e.bin ++ bins es := by simp [bins]
        rw [hcons] at hb'
        have hlen := congrArg List.length hb'
        simp only [List.length_append, List.length_map] at hlen
        refine ⟨cs'.take e.bin.length, cs'.drop e.bin.length, (List.take_append_drop _ _).symm, ?_, ?_⟩
        · have := congrArg (List.take e.bin.length) hb'
          rw [List.take_left, ← List.map_take] at this
          exact this
        · have := congrArg (List.drop e.bin.length) hb'
          rw [List.drop_left, ← List.map_drop] at this
          exact this
      subst hc
      have hw1 := h.step ha hg hs h5 (cs' := c1) (fun c hc => hg' c (by simp [hc])) hc1
      rw [← List.append_assoc]
      refine ih (cs ++ c1) c2 w1 w' hw1 ?_ (fun c hc => hg' c (by simp [hc])) hc2 hr hp
      intro c hc
      rcases List.mem_append.mp hc with hc | hc
      · exact hg c hc
      · exact hg' c (by simp [hc])

end

end Verif.TraMgr
