import Verif.Lemmas.HubProc
import Verif.Props.C56Order
/-!
# C74: Datagrams from elsewhere do not disturb a device client

See `/verif/properties.jsonl` and `DESIGN.md`. The model is that of `Verif/Model/HubProc.lean`: the UDP process and the device client with their mailboxes. The theorems
of C55 and C56 hold for it, whatever comes from elsewhere, if nothing comes before the first request; the order of events that counts is that
in which the device client takes datagrams from its mailbox (`Net.seen`).
-/

set_option autoImplicit false
set_option linter.unusedSimpArgs false

namespace Verif.HubProc
open Verif.Hub (Bytes DC DEv Msg World WEv Tgt Tgt13 isControl is13 bodyOf final)

/-! ## What is claimed -/

/-- The requests that arrive, in order. -/
def requests (es : List Ev) : List (Bytes × Nat) := es.filterMap fun e => match e with
  | .cast pkt pid => some (pkt, pid)
  | _ => none

/-- No datagram comes from elsewhere before the first request, and no `gen_udp:send` fails. -/
def Quiet (es : List Ev) : Prop :=
  .stranger ∉ es.takeWhile (fun e => match e with
    | .cast _ _ => false
    | _ => true) ∧ .sendFails ∉ es

section
variable {τ : Type} {recv : τ → Bytes → Bytes → τ × List Bytes} {absMax : Nat}

/-! ## The refinement -/

/-- **C74, the device client goes on.** If no datagram comes from elsewhere before the first request, and no datagram fails to be sent, the process is not ended by either. -/
theorem C74_goes_on {t : τ} {es : List Ev} {s : Net τ} (hq : Quiet es) (hr : (Net.init t).run recv absMax es = some s) : s.stopped = false := by
  cases es with
  | nil => cases hr; rfl
  | cons e es =>
    simp only [Net.run] at hr
    split at hr
    · rename_i s1 hs
      rcases first_step hs with ⟨pkt, pid, rfl⟩ | rfl
      · exact (Begun.run (begun_first hs) (fun h => hq.2 (by simp [h])) hr).1
      · exact absurd hq.1 (by simp)
    · cases hr

/-- **C74, the simulation.** Whatever comes from elsewhere, as long as the process is not ended by it (see `C74_goes_on`): clients and target see what they see in a run without it, with the same requests. -/
theorem C74_refines {t : τ} {es : List Ev} {s : Net τ} (hr : (Net.init t).run recv absMax es = some s) (hs : s.stopped = false) :
    Hub.casts ((Net.init t).seen recv absMax es) = requests es ∧
    ∃ w : World τ, (World.init t).run recv absMax ((Net.init t).seen recv absMax es) = some w ∧
      w.tgt = s.tgt ∧ w.dc.msgs = s.dc.msgs ∧ w.dc.phase = s.dc.phase ∧ w.dc.h = s.dc.h ∧ w.dc.flight = s.dc.flight ∧ w.dc.inbox = reqs s.box ∧
      w.toH.map (·.2) = s.toH ∧ s.toT <+: w.toT.map (·.2) := by
  refine ⟨seen_casts hr, ?_⟩
  obtain ⟨w, hw, hsim⟩ := (Sim.init t).run hr hs
  refine ⟨w, hw, hsim.tgt, ?_, ?_, ?_, ?_, ?_, hsim.toH, ?_⟩
  · rw [hsim.dc]; rfl
  · rw [hsim.dc]; rfl
  · rw [hsim.dc]; rfl
  · rw [hsim.dc]; rfl
  · rw [hsim.dc]; rfl
  · rw [hsim.toT]; exact List.prefix_append _ _

/-- **C74, one answer.** Each request is answered once, or still waits: also with datagrams from elsewhere in the mailboxes. `_partial`: `Quiet`. -/
theorem C74_one_answer_partial {t : τ} {es : List Ev} {s : Net τ} (hq : Quiet es) (hr : (Net.init t).run recv absMax es = some s) :
    (s.dc.msgs.map (·.pid) ++ s.view.waiting).Perm ((Net.init t).heard recv absMax es) := by
  have hs := C74_goes_on hq hr
  obtain ⟨w, hw, hsim⟩ := (Sim.init t).run hr hs
  obtain ⟨des, out, h1, h2⟩ := world_dc hw
  have h := Hub.C55_one_answer (absMax := absMax) (es := des) (d := w.dc) (out := out) h1
  rw [show Hub.heard absMax DC.init des = _ from h2, (Sim.init t).heard hr hs, hsim.dc] at h
  exact h

end

section
variable {σ : Type} {exec : σ → Bytes → σ × Bytes}

/-- **C74, IPbus 2.0.** The target executes each request once, in order, and the replies are those to the requests (C55): also with datagrams from elsewhere.
`_partial`: `Quiet`, and what C55 assumes of the network. -/
theorem C74_two_partial {absMax L : Nat} {t0 : Tgt σ} (hd : 0 < t0.depth) (hd32 : t0.depth < 4294967296) (ha : 0 < absMax)
    (hb : L + min t0.depth absMax + 2 * t0.depth < 65535) (h0 : Hub.RecentHist t0) {es : List Ev} {s : Net (Tgt σ)} (hq : Quiet es)
    (hr : (Net.init t0).run (Tgt.recv exec) absMax es = some s)
    (hp : Hub.WPrompt (Tgt.recv exec) absMax L (World.init t0) ((Net.init t0).seen (Tgt.recv exec) absMax es) = true) :
    (∃ e, e ≤ ((requests es).filter fun r => isControl r.1).length ∧ s.tgt.log.length = t0.log.length + e ∧
      s.tgt.st = final exec t0.st ((((requests es).filter fun r => isControl r.1).take e).map bodyOf)) ∧
    ∀ (k : Nat) (m : Msg), (s.dc.msgs.filter fun m => decide (m.code = 0))[k]? = some m →
      ∃ pkt, ((requests es).filter fun r => isControl r.1)[k]? = some (pkt, m.pid) ∧
        m.pkt = pkt.take 4 ++ (exec (final exec t0.st ((((requests es).filter fun r => isControl r.1).take k).map bodyOf)) (pkt.drop 4)).2 := by
  obtain ⟨hc, w, hw, ht, hm, _⟩ := C74_refines hr (C74_goes_on hq hr)
  have hcc : Hub.controlCasts ((Net.init t0).seen (Tgt.recv exec) absMax es) = (requests es).filter fun r => isControl r.1 := by
    rw [Hub.controlCasts, hc]
  constructor
  · obtain ⟨e, h1, h2, _, _, h5⟩ := Hub.C55_once_partial hd hd32 ha hb h0 hp hw
    rw [hcc] at h1 h5
    rw [ht] at h2 h5
    exact ⟨e, h1, h2, h5⟩
  · intro k m hk
    rw [← hm] at hk
    have := Hub.C55_reply_partial hd hd32 ha hb h0 hp hw hk
    rwa [hcc] at this

/-- **C74, IPbus 1.3.** The messages answer the requests in order, with the reply of the target to each or an error (C56): also with datagrams from elsewhere.
`_partial`: `Quiet`, and what C56 assumes of the network. -/
theorem C74_one_partial {absMax : Nat} {t0 : Tgt13 σ} (hst : ∀ st, (exec st Hub.statusReq13).2.take 4 = [0xfc, 0, 0, 0x10]) {es : List Ev}
    {s : Net (Tgt13 σ)} (hq : Quiet es) (hr : (Net.init t0).run (Tgt13.recv exec) absMax es = some s)
    (ht : Hub.Timely (Tgt13.recv exec) absMax (World.init t0) [] ((Net.init t0).seen (Tgt13.recv exec) absMax es) = true) :
    ∃ (S : List (Bytes × Bytes)) (E : List Hub.Done) (dn : List (Bytes × Nat)),
      (∀ x ∈ S, x.1 = Hub.statusReq13) ∧ E.Pairwise (fun x y => x.k < y.k) ∧
      (∀ x ∈ E, ((requests es).filter fun r => is13 r.1)[x.k]? = some (x.pkt, x.pid)) ∧
      s.tgt.log = t0.log ++ (S ++ E.map fun x => (x.pkt, x.reply)) ∧
      s.tgt.st = final exec t0.st ((S ++ E.map fun x => (x.pkt, x.reply)).map (·.1)) ∧
      dn <+: requests es ∧ s.dc.msgs.length = dn.length ∧
      ∀ (i : Nat) (m : Msg) (r : Bytes × Nat), s.dc.msgs[i]? = some m → dn[i]? = some r → m.pid = r.2 ∧
        ((m.code = 0 ∧ is13 r.1 = true ∧ ∃ x ∈ E, x.pkt = r.1 ∧ x.pid = r.2 ∧ x.reply = m.pkt) ∨
         (m.pkt = [] ∧ (m.code = 1 ∨ m.code = 3 ∨ m.code = 6))) := by
  obtain ⟨hc, w, hw, htgt, hm, _⟩ := C74_refines hr (C74_goes_on hq hr)
  obtain ⟨S, E, dn, h1, h2, h3, h4, h5, _, h7, h8, h9⟩ := Hub.C56_order_partial hst ht hw
  rw [Hub.casts13, hc] at h3
  rw [hc] at h7
  rw [htgt] at h4 h5
  rw [hm] at h8
  refine ⟨S, E, dn, h1, h2, h3, h4, h5, h7, h8, ?_⟩
  intro i m r hmi hri
  rw [← hm] at hmi
  obtain ⟨g1, g2⟩ := h9 i m r hmi hri
  refine ⟨g1, ?_⟩
  rcases g2 with ⟨a, b, x, hx, _, c, d, e⟩ | g2
  · exact .inl ⟨a, b, x, hx, c, d, e⟩
  · exact .inr g2

end

/-! ## Cases -/

/-- An IPbus 2.0 target, two clients, and datagrams from elsewhere in between; the reply to the status request comes twice. At the end nothing is left to do. -/
def noisyRun : List Ev :=
  let j := List.replicate 48 0
  [.cast [0x20, 0, 7, 0xf0, 10] 1, .stranger, .recv, .next, .cast [0xf0, 8, 0, 0x20, 20] 2, .next, .stranger, .next, .toTarget 0 j, .toHub 0, .stranger,
   .toHub 0, .fwd, .recv, .fwd, .recv, .recv, .recv, .next, .next, .next, .toTarget 1 j, .toTarget 2 j, .toHub 1, .toHub 2, .fwd, .recv, .recv, .fwd, .recv,
   .recv, .timeout]

/-- The hypotheses of `C74_goes_on`, `C74_one_answer_partial` and `C74_two_partial` hold for it (those about the target: `Verif/Props/C55World.lean`) … -/
example : Quiet noisyRun ∧
    Hub.WPrompt (Tgt.recv Hub.counter) 16 2 (World.init Hub.fresh) ((Net.init Hub.fresh).seen (Tgt.recv Hub.counter) 16 noisyRun) = true :=
  ⟨⟨by decide, by decide⟩, by decide +kernel⟩

/-- … and at its end both packets have been executed and answered. -/
example : ((Net.init Hub.fresh).run (Tgt.recv Hub.counter) 16 noisyRun).map (fun s => (s.dc.msgs, s.box, s.tgt.log, s.stopped, s.dc.h.mode)) =
    some ([⟨1, 0, [0x20, 0, 7, 0xf0, 0, 10]⟩, ⟨2, 0, [0xf0, 8, 0, 0x20, 1, 20]⟩], [],
      [[0x20, 0, 1, 0xf0, 10], [0xf0, 2, 0, 0x20, 20]], false, .stopped) := by decide +kernel

/-- What the device client has seen of it. -/
example : (Net.init Hub.fresh).seen (Tgt.recv Hub.counter) 16 noisyRun =
    let j := List.replicate 48 0
    [.cast [0x20, 0, 7, 0xf0, 10] 1, .take, .cast [0xf0, 8, 0, 0x20, 20] 2, .toTarget 0 j, .toHub 0, .take, .toHub 0, .toTarget 1 j, .toTarget 2 j,
     .toHub 1, .toHub 2, .timeout] := by decide +kernel

/-- An IPbus 1.3 target. -/
def noisyRun13 : List Ev :=
  let j := List.replicate 48 0
  [.cast (Hub.req13 7) 1, .cast (Hub.req13 8) 2, .stranger, .recv, .next, .stranger, .next, .next, .toTarget 0 j, .toHub 0, .fwd, .recv, .next, .toTarget 1 j,
   .timeout, .toHub 1, .stranger, .fwd, .next, .recv, .recv, .next, .toTarget 2 j, .toHub 2, .fwd, .recv, .recv, .recv, .recv]

example : Quiet noisyRun13 ∧
    Hub.Timely (Tgt13.recv Hub.count13) 16 (World.init ⟨40, []⟩) [] ((Net.init ⟨40, []⟩).seen (Tgt13.recv Hub.count13) 16 noisyRun13) = true :=
  ⟨⟨by decide, by decide⟩, by decide +kernel⟩

example : ((Net.init ⟨40, []⟩).run (Tgt13.recv Hub.count13) 16 noisyRun13).map (fun s => (s.dc.msgs, s.box, s.tgt.st, s.stopped)) =
    some ([⟨1, 0, [0xfc, 0, 0, 0x10, 40]⟩, ⟨2, 0, [0xfc, 0, 0, 0x10, 41]⟩], [], 42, false) := by decide +kernel

/-! ## Failures -/

/-- A process that has been stopped does nothing any more. -/
theorem stopped_dc {τ : Type} {recv : τ → Bytes → Bytes → τ × List Bytes} {absMax : Nat} {s' : Net τ} : ∀ {es : List Ev} {s : Net τ},
    s.stopped = true → s.run recv absMax es = some s' → s'.dc = s.dc := by
  intro es
  induction es with
  | nil => intro s _ h; cases h; rfl
  | cons e es ih =>
    intro s h0 h
    simp only [Net.run] at h
    split at h
    · rename_i s1 hs
      rw [ih (stopped_step hs h0) h]
      clear ih h
      cases e <;> simp only [Net.step, Net.gone, h0, Bool.true_or, if_true, Option.some.injEq] at hs
      · subst hs; rfl
      · subst hs; rfl
      · split at hs
        · cases hs
        · split at hs
          · cases hs; rfl
          · cases hs
      · split at hs <;> cases hs
        rfl
      · split at hs <;> cases hs
        unfold Net.pass
        split <;> rfl
      · split at hs <;> cases hs
        unfold Net.pass
        split <;> rfl
      · split at hs <;> cases hs
        rfl
      all_goals cases hs
    · cases h

/-- **C74 fails before the first request.** A datagram from anywhere that arrives between the start of a device client and its first request ends it: the request, which is in
its mailbox, is never answered. -/
theorem C74_violated_idle : ∃ (es : List Ev) (s : Net (Tgt Nat)), (Net.init Hub.fresh).run (Tgt.recv Hub.counter) 16 es = some s ∧
    .sendFails ∉ es ∧ (Net.init Hub.fresh).heard (Tgt.recv Hub.counter) 16 es = [1] ∧
    ∀ es' s', s.run (Tgt.recv Hub.counter) 16 es' = some s' → s'.dc.msgs = [] :=
  ⟨[.stranger, .next, .cast [0x20, 0, 7, 0xf0, 10] 1, .recv], _, rfl, by decide, by decide, fun es' s' h => by
    rw [stopped_dc rfl h]; rfl⟩

/-- **C74 fails when a datagram cannot be sent.** The UDP process ends with an error, and the device client with it, without a message to its clients. -/
theorem C74_violated_send : ∃ (es : List Ev) (s : Net (Tgt Nat)), (Net.init Hub.fresh).run (Tgt.recv Hub.counter) 16 es = some s ∧
    .stranger ∉ es ∧ (Net.init Hub.fresh).heard (Tgt.recv Hub.counter) 16 es = [1, 2] ∧
    ∀ es' s', s.run (Tgt.recv Hub.counter) 16 es' = some s' → s'.dc.msgs = [] :=
  ⟨[.cast [0x20, 0, 7, 0xf0, 10] 1, .recv, .cast [0xf0, 8, 0, 0x20, 20] 2, .sendFails], _, rfl, by decide, by decide, fun es' s' h => by
    rw [stopped_dc rfl h]; rfl⟩

end Verif.HubProc
