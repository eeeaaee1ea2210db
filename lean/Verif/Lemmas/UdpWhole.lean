import Verif.Lemmas.TcpWhole
import Verif.Lemmas.UdpLink
import Verif.Lemmas.Decent
/-!
# Runs of the UDP client without a failure

While no call fails, the exception handler does not run, and what happened to the packets is what the datagrams received say.
-/

set_option autoImplicit false
set_option linter.unusedSimpArgs false

namespace Verif

/-- A program without failures, on a transport that keeps an invariant while it does not fail; both versions, with the transaction numbers. -/
theorem good_ids {τ : Type} {c : Cfg} {T : Transport τ} {P : List Buf → τ → Prop} {F : τ → Prop} (hw : WF c)
    (hT : TOK c T P F (fun _ e _ => e ≠ .bitsForbidden))
    (ops : List Op) (hops : ∀ op ∈ ops, op.ok c) {s s' : St τ} {G : Gh} {rs : List Res} (h : RI c P F s [] G)
    (hG : G.items.map Item.cnt = List.range' 0 G.n)
    (hrun : runOps c T ops s = some (rs, s')) (hok : ∀ e, .exc e ∈ rs → e = .bitsForbidden) :
    ∃ G', RI c P F s' [] G' ∧ G'.items.map Item.cnt = List.range' 0 G'.n ∧ (ops.getLast? = some .dispatch → G'.cur = none) := by
  induction ops generalizing s G rs with
  | nil => rw [runOps] at hrun; cases hrun; exact ⟨G, h, hG, by simp⟩
  | cons op ops ih =>
    have hs := step hw hT h.rep op (hops op (by simp))
    rw [runOps] at hrun
    generalize op.run c T s = r at hs hrun
    have hnil : ∀ {rs : List Res} {s1 s2 : St τ}, ops = [] → runOps c T ops s1 = some (rs, s2) → s2 = s1 := by
      rintro rs s1 s2 rfl h; rw [runOps] at h; cases h; rfl
    cases hs with
    | ok hh s1 G1 its obj rep ext mono real hok' tiles disp =>
      simp only [Option.map_eq_some_iff] at hrun
      obtain ⟨p, hp, he⟩ := hrun
      obtain ⟨rs1, s2⟩ := p
      obtain ⟨rfl, rfl⟩ := Prod.mk.inj he
      obtain ⟨new, n1, n2, n3, n4⟩ := ext.items
      obtain ⟨G', h2, h3, h5⟩ := ih (fun o ho => hops o (by simp [ho])) (h.extend rep ext.base ext.all mono)
        (by rw [n1, List.map_append, hG, n3, n4, ← List.range'_append_1, Nat.zero_add]) hp (fun e he => hok e (by simp [he]))
      refine ⟨G', h2, h3, ?_⟩
      intro hl
      cases hops' : ops with
      | nil =>
        rw [hops', List.getLast?_singleton, Option.some.injEq] at hl
        have := hnil hops' hp
        subst this
        have e1 := rep.cur
        have e2 := h2.rep.cur
        rw [(disp hl).2] at e1
        rw [e1] at e2
        cases hg : G'.cur with
        | none => rfl
        | some g => rw [hg] at e2; cases e2
      | cons o ops' =>
        rw [hops', List.getLast?_cons_cons] at hl
        rw [hops'] at h5
        exact h5 hl
    | forbidden a d m hop hf =>
      subst hop
      simp only [Option.map_eq_some_iff] at hrun
      obtain ⟨p, hp, he⟩ := hrun
      obtain ⟨rs1, s2⟩ := p
      obtain ⟨rfl, rfl⟩ := Prod.mk.inj he
      obtain ⟨G', h2, h3, h5⟩ := ih (fun o ho => hops o (by simp [ho])) h hG hp (fun e he => hok e (by simp [he]))
      refine ⟨G', h2, h3, ?_⟩
      intro hl
      cases hops' : ops with
      | nil => rw [hops'] at hl; simp at hl
      | cons o ops' => rw [hops', List.getLast?_cons_cons] at hl; rw [hops'] at h5; exact h5 hl
    | refused a m s1 G1 hop hv' rep ext mono =>
      simp only [Option.map_eq_some_iff] at hrun
      obtain ⟨p, hp, he⟩ := hrun
      obtain ⟨rfl, rfl⟩ := Prod.mk.inj he
      exact absurd (hok .headerType (by simp)) (by simp)
    | failed e s1 us fail real =>
      simp only [Option.map_eq_some_iff] at hrun
      obtain ⟨p, hp, he⟩ := hrun
      obtain ⟨rfl, rfl⟩ := Prod.mk.inj he
      obtain ⟨t, _, ht⟩ := fail.tr
      exact absurd (hok e (by simp)) ht

/-- No refused reply that has not been reported yet. -/
def Udp.noInv (u : Udp) : Prop := ∀ e ws, u.mid ≠ some (.invalid e ws)

/-- What happened to the packets is what the datagrams say, until there is an error. -/
def UTold (c : Cfg) (u : Udp) : Prop := u.exc = none → u.noInv →
  u.outcomes = u.matched.map (fun x => (x.buf, some x.reply)) ∧ ∀ x ∈ u.matched, ∃ h, (receiveReply c h x.buf x.reply).1 = .ok

section
variable {c : Cfg} {N : Nat} {u : Udp}

theorem UTold.same {v : Udp} (h : UTold c u) (h1 : v.exc = u.exc) (h2 : v.mid = u.mid) (h3 : v.outcomes = u.outcomes) (h4 : v.matched = u.matched) :
    UTold c v := by
  intro e m
  rw [h3, h4]
  exact h (by rw [← h1]; exact e) (by intro a b; rw [← h2]; exact m a b)

theorem UTold.error {v : Udp} (h : v.exc ≠ none) : UTold c v := fun e => absurd e h

theorem UTold.init : UTold c .init := fun _ _ => ⟨rfl, by simp [Udp.init]⟩

theorem UTold.ev {e : Ev} (h : UTold c u) : UTold c (u.ev c N e) := by
  unfold Udp.ev
  split
  · exact h
  · cases hm : u.mid with
    | none =>
      have hni : u.noInv := by intro a b; rw [hm]; simp
      cases e with
      | recvEnd => exact h
      | timeout =>
        have f := Frame.timeout u
        refine h.same ?_ f.mid ?_ f.matched
        · unfold Udp.timeout; cases u.deadline <;> rfl
        · unfold Udp.timeout; cases u.deadline <;> rfl
      | sendDone ok =>
        have f := Frame.sendDone N ok u
        rcases sendDone_exc N ok u with ⟨a, b⟩ | ⟨_, a, _⟩
        · exact h.same a f.mid b f.matched
        · exact .error (by simp only; rw [a]; simp)
      | recvBegin r =>
        simp only [Udp.recvBegin]
        cases hr : u.recvOps with
        | nil => exact h
        | cons x ops =>
          simp only
          split
          · exact h.same rfl rfl rfl rfl
          · split
            · exact .error (by simp [Udp.fail])
            · cases hb : u.reply with
              | none => exact h.same rfl rfl rfl rfl
              | some b =>
                cases r with
                | none => exact fun e _ => h e hni
                | some ws =>
                  simp only
                  cases hre : receiveReply c u.heap b ws with
                  | mk o hp =>
                    cases o with
                    | ok =>
                      intro e _
                      obtain ⟨a1, a2⟩ := h e hni
                      refine ⟨by simp only; rw [a1]; simp, ?_⟩
                      intro x hx
                      rcases List.mem_append.1 hx with hx | hx
                      · exact a2 x hx
                      · rw [List.mem_singleton.1 hx]
                        exact ⟨u.heap, by rw [hre]⟩
                    | err e => exact fun _ hn => absurd rfl (hn _ _)
                    | ub => exact h.same rfl rfl rfl rfl
    | some m =>
      cases e with
      | sendDone ok => exact h
      | timeout => exact h
      | recvBegin r => exact h
      | recvEnd =>
        simp only [Udp.recvEnd, hm]
        cases m with
        | failed => exact .error (by simp [Udp.fail])
        | invalid e ws => exact .error (by simp)
        | last =>
          have hni : u.noInv := by intro a b; rw [hm]; simp
          have h0 : UTold c { u with mid := none } := fun e _ => h e hni
          simp only
          split
          · exact h0.same rfl rfl rfl rfl
          · obtain ⟨q1, _, q3, _, _, _, q7, q8⟩ := Frame.pop N { u with mid := none }
            exact h0.same q7 q3 q8 q1

theorem UTold.evs (es : List Ev) (h : UTold c u) : UTold c (es.foldl (Udp.ev c N) u) := by
  induction es generalizing u with
  | nil => exact h
  | cons e es ih => exact ih h.ev

theorem UInv.evs (h0 : 0 < N) (hN : N < 2 ^ 32) (es : List Ev) (h : UInv N u) (hc : (es.foldl (Udp.ev c N) u).crashed = false) :
    UInv N (es.foldl (Udp.ev c N) u) := by
  induction es generalizing u with
  | nil => exact h
  | cons e es ih =>
    have h1 : (u.ev c N e).crashed = false := by
      cases hx : (u.ev c N e).crashed with
      | false => rfl
      | true => rw [List.foldl_cons, evs_crashed N es hx] at hc; cases hc
    have h2 : u.crashed = false := by
      cases hx : u.crashed with
      | false => rfl
      | true => rw [evs_crashed N (e :: es) hx] at hc; cases hc
    exact ih ((h.ev h0 hN h2).1 h1) hc

theorem evs_dispatched (es : List Ev) (u : Udp) : (es.foldl (Udp.ev c N) u).dispatched = u.dispatched := by
  induction es generalizing u with
  | nil => rfl
  | cons e es ih => rw [List.foldl_cons, ih, ev_dispatched]

/-- The client between two calls, as long as there was no failure. -/
structure UWhole (c : Cfg) (N : Nat) (h : List Buf) (t : UdpT) : Prop where
  inv : UInv N t.u
  told : UTold c t.u
  fine : t.u.Fine
  all : t.u.dispatched = h
  exc : t.u.exc = none
  dirty : t.u.dirty = false

/-- All is answered. -/
def UQuiet (t : UdpT) : Prop := t.u.finished = t.u.dispatched ∧ t.u.sent = t.u.dispatched ∧ t.u.mid = none ∧ t.u.rx.length = t.u.dispatched.length

theorem UWhole.init (plan : List (List Ev)) : UWhole c N [] ⟨.init, plan, 0, []⟩ :=
  ⟨.init, .init, ⟨by simp [Udp.init], by simp [Udp.init]⟩, rfl, rfl, rfl⟩

theorem udp_whole (h0 : 0 < N) (hN : N < 2 ^ 32) : TOK c (udpT c N).closed (UWhole c N) UQuiet (fun _ e _ => e ≠ .bitsForbidden) := by
  constructor
  · intro h t f hP _
    obtain ⟨p1, p2, p3, p4, p5, p6⟩ := hP
    simp only [Transport.closed, udpT]
    cases hcr : ((t.plan.headD []).foldl (Udp.ev c N) t.u).crashed with
    | true => simp [Out.orFail]
    | false =>
      simp only [Bool.false_eq_true, if_false]
      have i1 := p1.evs h0 hN _ hcr
      have i2 := p2.evs (N := N) (t.plan.headD [])
      have i3 := p3.evs (c := c) (N := N) (t.plan.headD [])
      have e1 := evs_dispatched (c := c) (N := N) (t.plan.headD []) t.u
      have e2 := evs_dirty (c := c) N (t.plan.headD []) t.u
      generalize (t.plan.headD []).foldl (Udp.ev c N) t.u = u1 at *
      cases hd : u1.dispatch N (f.buf c) with
      | ok a u' =>
        simp only [Out.orFail]
        obtain ⟨d1, d2, d3, d4⟩ := dispatch_dispatched hd
        have ff := Frame.dispatch hd
        have fo : u'.outcomes = u1.outcomes := by
          revert hd
          unfold Udp.dispatch
          rw [d4]
          simp only
          split <;> intro hd <;> cases hd <;> rfl
        exact ⟨i1.dispatch hN hd, i2.same (d3.trans d4.symm) ff.mid fo ff.matched,
          ⟨by simp only; rw [d3]; simp, by simp only; rw [ff.mid]; exact i3.2⟩, by simp only; rw [d1, e1, p4], d3, ff.dirty.trans (e2.trans p6)⟩
      | exc e u' =>
        simp only [Out.orFail]
        obtain ⟨he, _⟩ := dispatch_exc hd
        rintro rfl
        exact i3.1 he
      | ub => simp [Out.orFail]
      | loops => simp [Out.orFail]
  · intro h t hP
    obtain ⟨p1, p2, p3, p4, p5, p6⟩ := hP
    simp only [Transport.closed, udpT]
    cases hcr : ((t.plan.headD []).foldl (Udp.ev c N) t.u).crashed with
    | true => simp [Out.orFail]
    | false =>
      simp only [Bool.false_eq_true, if_false]
      have i1 := p1.evs h0 hN _ hcr
      have i2 := p2.evs (N := N) (t.plan.headD [])
      have i3 := p3.evs (c := c) (N := N) (t.plan.headD [])
      have e1 := evs_dispatched (c := c) (N := N) (t.plan.headD []) t.u
      have e2 := evs_dirty (c := c) N (t.plan.headD []) t.u
      generalize (t.plan.headD []).foldl (Udp.ev c N) t.u = u1 at *
      unfold Udp.flush
      cases hf : u1.flushDone with
      | false => simp [Out.orFail]
      | true =>
        simp only [if_true]
        cases he : u1.exc with
        | some e =>
          simp only [Out.orFail]
          rintro rfl
          exact i3.1 he
        | none =>
          simp only [Out.orFail]
          obtain ⟨g1, g2⟩ := (i1.flush he).1 hf
          have g3 := i1.rq g2
          have g4 : u1.dispQ = [] := by
            cases hq : u1.dispQ with
            | nil => rfl
            | cons x q =>
              have := i1.queue (by simp [hq]) g1
              rw [i1.fl, g1, g2, g3] at this
              simp at this
              omega
          have g5 : u1.mid = none := by
            have := i1.rops' he
            rw [g2] at this
            cases hm : u1.mid with
            | none => rfl
            | some m => rw [hm] at this; simp at this
          have g6 : u1.finished = u1.dispatched := by rw [i1.disp, g1, g2, g3, g4]; simp
          refine ⟨⟨i1, i2, i3, by simp only; rw [e1, p4], he, e2.trans p6⟩, g6, ?_, g5, ?_⟩
          · show u1.sent = u1.dispatched
            rw [i1.sent, g1, g2, g3, ← g6]; simp
          · show u1.rx.length = u1.dispatched.length
            rw [i1.rxl' he (.inl g5), g6]

end
end Verif
