import Verif.Lemmas.PagedLink
import Verif.Lemmas.PagedDev
import Verif.Props.C07
import Verif.Props.C16
import Verif.Props.C18
import Verif.Props.C26
/-!
# C12, C15, C16, C17 over the PCIe and mmap clients

Programs of client calls on the state machine of client `i`, for any interleaving of its steps with those of the device and of any
number of other clients, and any failed accesses. There is no restriction to schedules without races or late starts: whatever the
client reads from a page is validated as the reply to the oldest packet, and what follows is in terms of the words read. That they are
the device's answer is C26.
-/

set_option autoImplicit false

namespace Verif
open Spec

section
variable {δ : Type} {c : Cfg} {ps : Nat → PCfg} {dresp : δ → List W → Option (List W) × δ} {i pages size start : Nat} {count0 : W} {d0 : δ}

/-- C16 over the PCIe and mmap clients: every program that ends with a dispatch, over every schedule, when the words read are the
answers of a conforming target (`Follows`: the target was asked the packets in order), gives what the calls give one at a time
on the target's memory. -/
theorem C16_paged {σ ρ : Type} {tg : Target σ} {mem : ρ → σ} {resp : ρ → List W → Option (List W) × ρ}
    (hw : WF c) (hcap : CapOK c) (hr : c.ver = .v2 → Roomy c) (hc : Conforms c tg mem resp) (ops : List Op)
    (hops : ∀ op ∈ ops, op.ok c ∧ op.maskOK c.wrapNeg) (plan : List (List PAct)) (rs : List Res) (s : St (PagedT δ))
    (h : runOps c (pagedT c ps dresp i) (ops ++ [.dispatch]) (St.init (PagedT.init ps pages size start count0 d0 plan)) = some (rs, s))
    (e eEnd : ρ) (hf : Follows resp e s.tr.outcomes eEnd) :
    rs.map (resShow c.wrapNeg (s.tr.w.cl i).heap) = (seqRun c.ver tg (ops ++ [.dispatch]) (mem e)).1.map (Option.map ValOut.data) ∧
    mem eEnd = (seqRun c.ver tg (ops ++ [.dispatch]) (mem e)).2 := by
  obtain ⟨sched, s', h1, hR, h8⟩ := paged_refines _ plan rs s h hf
  obtain ⟨rs1, s1, g1, g2, g3⟩ := C16_refinement hw hcap hr hc ops hops e sched
  rw [h1] at g1; cases g1
  rw [hR.heap, ← h8]
  exact ⟨g2, g3⟩

/-- C15 over the PCIe and mmap clients: an object is valid exactly if a reply to the packet with its last part was accepted. -/
theorem C15_paged_valid_iff (hw : WF c) (hcap : CapOK c) (hr : c.ver = .v2 → Roomy c) (ops : List Op)
    (hops : ∀ op ∈ ops, op.ok c) (plan : List (List PAct)) (rs : List Res) (s : St (PagedT δ))
    (h : runOps c (pagedT c ps dresp i) ops (St.init (PagedT.init ps pages size start count0 d0 plan)) = some (rs, s)) (o : Nat) :
    (s.tr.w.cl i).heap.valid o = true ↔ ∃ x ∈ (s.tr.w.cl i).got, x.2.2.2.2 = .ok ∧ o ∈ x.1.adds := by
  obtain ⟨sched, s', h1, hR, h8⟩ := paged_refines _ plan rs s h (follows_list _)
  rw [hR.heap, C15_valid_iff (resp := listResp) hw hcap hr ops hops rs s' ⟨_, _, h1⟩ o, hR.log]
  simp only [List.mem_map]
  constructor
  · rintro ⟨e, ⟨x, hx, rfl⟩, h⟩; exact ⟨x, hx, h⟩
  · rintro ⟨x, hx, h⟩; exact ⟨_, ⟨x, hx, rfl⟩, h⟩

/-- C15 over the PCIe and mmap clients: if an object is valid, every packet with a part of it was answered and the reply accepted. -/
theorem C15_paged_failed (hw : WF c) (hcap : CapOK c) (hr : c.ver = .v2 → Roomy c) (ops : List Op)
    (hops : ∀ op ∈ ops, op.ok c) (plan : List (List PAct)) (rs : List Res) (s : St (PagedT δ))
    (h : runOps c (pagedT c ps dresp i) ops (St.init (PagedT.init ps pages size start count0 d0 plan)) = some (rs, s)) (o : Nat)
    (hv : (s.tr.w.cl i).heap.valid o = true) (b : Buf) (hb : b ∈ s.hist) (ht : b.touches o) : ∃ x ∈ (s.tr.w.cl i).got, x.1 = b ∧ x.2.2.2.2 = .ok := by
  obtain ⟨sched, s', h1, hR, h8⟩ := paged_refines _ plan rs s h (follows_list _)
  have key := C15_complete (resp := listResp) hw hcap hr ops hops rs s' ⟨_, _, h1⟩ o
  rw [hR.hist] at key
  obtain ⟨e, he, h⟩ := key (by rw [← hR.heap]; exact hv) b hb ht
  rw [hR.log] at he
  obtain ⟨x, hx, rfl⟩ := List.mem_map.1 he
  exact ⟨x, hx, h⟩

/-- C12 over the PCIe and mmap clients (partial as `C12_delivered_partial`): the words of a valid object are words of accepted replies
to its packets. -/
theorem C12_paged_partial (hw : WF c) (hcap : CapOK c) (hr : c.ver = .v2 → Roomy c) (ops : List Op)
    (hops : ∀ op ∈ ops, op.ok c) (plan : List (List PAct)) (rs : List Res) (s : St (PagedT δ))
    (h : runOps c (pagedT c ps dresp i) ops (St.init (PagedT.init ps pages size start count0 d0 plan)) = some (rs, s)) (o : Nat)
    (hv : (s.tr.w.cl i).heap.valid o = true) (b : Buf) (hb : b ∈ s.hist) (ht : b.touches o) :
    ∃ x ∈ (s.tr.w.cl i).got, x.1 = b ∧ x.2.2.2.2 = .ok ∧
      (∀ a hs r, b.reply = a ++ hs :: r → hs.loc.isHdr = true → (a.map Slot.len).sum < x.2.2.2.1.length) ∧
      ∀ (p : Nat) (l : Loc), (bufLocs b)[p]? = some l → l.obj? ≠ none → (s.tr.w.cl i).heap.word l = x.2.2.2.1[p]?.getD 0 := by
  obtain ⟨sched, s', h1, hR, h8⟩ := paged_refines _ plan rs s h (follows_list _)
  obtain ⟨e, he, k1, k2, k3, k4⟩ := C12_delivered_partial (resp := listResp) hw hcap hr ops hops rs s' ⟨_, _, h1⟩ o
    (by rw [← hR.heap]; exact hv) b (by rw [hR.hist]; exact hb) ht
  rw [hR.log] at he
  obtain ⟨x, hx, rfl⟩ := List.mem_map.1 he
  rw [hR.heap]
  exact ⟨x, hx, k1, k2, k3, k4⟩

/-- C17 over the PCIe and mmap clients. After a program whose last call failed otherwise than in an argument check, every continuation
gives the results, and hands over the packets, of a client constructed now and connected to an environment that answers as
this one did from then on. -/
theorem C17_paged {ρ : Type} {resp : ρ → List W → Option (List W) × ρ}
    (hw : WF c) (hcap : CapOK c) (hr : c.ver = .v2 → Roomy c) (ops ops' : List Op) (op : Op)
    (hops : ∀ o ∈ ops ++ [op], o.ok c) (hops' : ∀ op ∈ ops', op.ok c) (plan : List (List PAct)) (rs rs' : List Res) (x : Exc) (s s' : St (PagedT δ))
    (h : runOps c (pagedT c ps dresp i) (ops ++ [op]) (St.init (PagedT.init ps pages size start count0 d0 plan)) = some (rs ++ [.exc x], s))
    (h' : runOps c (pagedT c ps dresp i) ops' s = some (rs', s')) (e e1 e2 : ρ) (rest : List (Buf × Option (List W)))
    (ho : s'.tr.outcomes = s.tr.outcomes ++ rest) (hf : Follows resp e s.tr.outcomes e1) (hf' : Follows resp e1 rest e2)
    (h1 : ∀ a d m, op ≠ .writeMasked a d m ∨ x ≠ .bitsForbidden) (h2 : ∀ a m, op ≠ .readConfig a m ∨ c.ver = .v2) :
    ∃ sched rs0 sN, runOps c (linkT c resp) ops' (St.init (Link.init e1 sched)) = some (rs0, sN) ∧
      rs' = rs0.map (Res.shift s.nObj) ∧ s'.hist = s.hist ++ sN.hist.map (Buf.shift s.nObj s.nPre) ∧ sN.tr.env = e2 := by
  obtain ⟨sched, l, l', k1, k2, k3, k4, k5, k6⟩ := paged_refines₂ _ ops' plan _ _ s s' h h' (ho ▸ hf.append hf')
  have he := hf.det k5
  obtain ⟨rs0, sN, l2, g1, g2, g3, _, g5, _⟩ := C17_fresh hw hcap hr ops ops' op hops hops' rs x l ⟨e, sched, k1⟩ h1 h2
  rw [k2] at g2; cases g2
  rw [← he] at g1
  refine ⟨_, rs0, sN, g1, by rw [k3.nObj], ?_, by rw [← g5, k6]⟩
  rw [← k4.hist, g3, k3.hist, k3.nObj, k3.nPre]

end

/-! ### With the device in the model -/

theorem bufLocs_words (b : Buf) : (bufLocs b).length = b.replyWords := by
  unfold bufLocs Buf.replyWords
  rw [List.length_flatMap]
  congr 1
  apply List.map_congr_left
  intro s _
  unfold slotLocs
  simp

section
variable {σ ρ : Type} {c : Cfg} {ps : Nat → PCfg} {tg : Target σ} {mem : ρ → σ} {resp : ρ → List W → Option (List W) × ρ} {i pages size start : Nat} {count0 : W} {e : ρ}

/-- The packets that the client hands over fit in pages, as `getMaxSendSize` and `getMaxReplySize` are at most a page without its header
(ProtocolPCIe.cpp 425-440, 462-463); a conforming device answers them. -/
theorem pb_fin (hw : WF c) (hcap : CapOK c) (hr : c.ver = .v2 → Roomy c) (hv : c.ver = .v2) (hc : Conforms c tg mem resp)
    (hs : c.maxSend.toNat ≤ 4 * (size - 1)) (hp : c.maxReply.toNat ≤ 4 * (size - 1)) (hsz : 1 ≤ size) {f : Fin'} (hf : FinOK c f) : PB c resp size (f.buf c) := by
  have hb := fin_bounds hw hf
  have hrl := hb.2.1 hv
  have hne := fin_ne hf hr
  have hparse := parse_fin hf
  refine ⟨⟨?_, by omega⟩, by omega, ?_⟩
  · have : (mkBuf c ⟨f.g.k, f.all⟩).send ≠ [] := by
      unfold mkBuf preSend
      simp [hv]
    unfold Fin'.buf
    rw [(patch_length c _).1]
    exact List.length_pos_iff.2 this
  · intro e
    obtain ⟨pre, body, e', hre, hpr, hbd, hmem⟩ := hc e (f.buf c).send _ hparse (by simp [hne])
    rw [show (f.all.map fun it => (it.cnt % 2 ^ idBits c.ver, it.txn)) = f.all.map (onWire c.ver) from rfl, onWire_snd] at hbd
    refine ⟨pre ++ body, e', hre, ?_, fun h => ?_⟩
    · rw [← bufLocs_words, fin_locs, List.length_append, List.length_append, replyPre_length hpr, body_length _ _ _ hbd, preLocs_length]
    · have hv := conf_verdict hf h pre body _ hpr hbd
      rw [receive_out, validateBuf_fin hw hf hcap hr, hv]
      rfl

/-- What holds in the beginning. -/
theorem SoloT.init (plan : List (List PAct)) (hplan : ∀ as ∈ plan, ∀ a ∈ as, a.tame i)
    (hph : PHyp ps resp (PW.init ps pages size start count0 e).dev) :
    SoloT c ps resp size i e (PagedT.init ps pages size start count0 e plan) := by
  obtain ⟨h1, h2⟩ := PG.init c ps resp pages size start count0 e
  refine ⟨⟨h1, h2, hph, rfl, rfl, rfl, PPc.ok_idle, ?_, rfl, rfl, ?_, ?_, ?_, rfl, ?_, e, ?_, [], .nil e⟩, rfl, rfl, hplan⟩
  · intro x hx; cases hx
  · intro x hx; cases hx
  · intro b hb; cases hb
  · intro q hq; cases hq
  · intro h; cases h
  · exact .nil e

/-- At the end of a run the invariant of `Lemmas/PagedDev.lean` holds. -/
theorem paged_solo (hw : WF c) (hcap : CapOK c) (hr : c.ver = .v2 → Roomy c) (hv : c.ver = .v2) (hc : Conforms c tg mem resp)
    (hs : c.maxSend.toNat ≤ 4 * (size - 1)) (hp : c.maxReply.toNat ≤ 4 * (size - 1))
    (hph : PHyp ps resp (PW.init ps pages size start count0 e).dev) (ops : List Op) (hops : ∀ op ∈ ops, op.ok c)
    (plan : List (List PAct)) (hplan : ∀ as ∈ plan, ∀ a ∈ as, a.tame i) (rs : List Res) (s : St (PagedT ρ))
    (h : runOps c (pagedT c ps resp i) ops (St.init (PagedT.init ps pages size start count0 e plan)) = some (rs, s)) :
    SoloT c ps resp size i e s.tr := by
  obtain ⟨sched, s', h1, hR, _⟩ := paged_refines ops plan rs s h (follows_list _)
  obtain ⟨fs, ls, log0, G, hI, _⟩ := Reach.inv (resp := listResp) hw hcap hr hops ⟨_, _, h1⟩
  have hfin : ∀ b ∈ s.hist, PB c resp size b := by
    intro b hb
    rw [← hR.hist, hI.ri.rep.hist, hI.ri.base, ← List.map_append, List.mem_map] at hb
    obtain ⟨f, hf, rfl⟩ := hb
    refine pb_fin hw hcap hr hv hc hs hp (by have := hph.sz; have : 2 ≤ size := this; omega) ?_
    exact (List.mem_append.1 hf).elim (hI.ri.fin f) (hI.ri.rep.doneOK f)
  obtain ⟨_, s2, _, h3⟩ := sim_run (solo_sim (c := c) (ps := ps) (resp := resp) (i := i) (size := size) (e := e)) ops (h0 := []) (h0' := []) h ⟨hfin, trivial⟩
    (s' := St.init (PagedT.init ps pages size start count0 e plan)) ⟨rfl, rfl, rfl, rfl, ⟨rfl, SoloT.init plan hplan hph⟩, [], rfl, rfl⟩
  exact h3.tr.2

/-- C16 over the PCIe and mmap clients, end to end: the client is alone with a device that conforms to the specification, and no
access fails; the steps of the client and of the device are interleaved in any way. Every program that ends with a dispatch and
comes to an end gives what the calls give one at a time, and leaves the device's memory as they do. -/
theorem C16_paged_device (hw : WF c) (hcap : CapOK c) (hr : Roomy c) (hv : c.ver = .v2) (hc : Conforms c tg mem resp)
    (hs : c.maxSend.toNat ≤ 4 * (size - 1)) (hp : c.maxReply.toNat ≤ 4 * (size - 1))
    (hph : PHyp ps resp (PW.init ps pages size start count0 e).dev) (ops : List Op) (hops : ∀ op ∈ ops, op.ok c ∧ op.maskOK c.wrapNeg)
    (plan : List (List PAct)) (hplan : ∀ as ∈ plan, ∀ a ∈ as, a.tame i) (rs : List Res) (s : St (PagedT ρ))
    (h : runOps c (pagedT c ps resp i) (ops ++ [.dispatch]) (St.init (PagedT.init ps pages size start count0 e plan)) = some (rs, s)) :
    rs.map (resShow c.wrapNeg (s.tr.w.cl i).heap) = (seqRun c.ver tg (ops ++ [.dispatch]) (mem e)).1.map (Option.map ValOut.data) ∧
    mem s.tr.w.dev.env = (seqRun c.ver tg (ops ++ [.dispatch]) (mem e)).2 := by
  have hsolo := paged_solo hw hcap (fun _ => hr) hv hc hs hp hph (ops ++ [.dispatch])
    (by intro op ho
        rcases List.mem_append.1 ho with ho | ho
        · exact (hops op ho).1
        · rw [List.mem_singleton.1 ho]; trivial) plan hplan rs s h
  obtain ⟨e', hf, as, hsv⟩ := hsolo.solo.fol
  rw [← hsolo.out] at hf
  obtain ⟨k1, k2⟩ := C16_paged hw hcap (fun _ => hr) hc ops hops plan rs s h e e' hf
  refine ⟨k1, ?_⟩
  have hq : (s.tr.w.cl i).queue = [] := by
    obtain ⟨sched, s', h1, hR, _⟩ := paged_refines _ plan rs s h hf
    obtain ⟨rs1, s1, g1, _, _, _, g2⟩ := refinement_log hw hcap (fun _ => hr) hc ops hops e sched
    rw [h1] at g1; cases g1
    rw [hR.pend] at g2
    exact List.map_eq_nil_iff.1 g2
  have henv : s.tr.w.dev.env = e' := by
    obtain ⟨e1, h1, h2⟩ := hsolo.solo.pg.dev.served
    have hd := hsolo.solo.done hq
    have hl := hsolo.solo.cnt
    rw [hq, List.length_nil, Nat.add_zero] at hl
    have hnr := hsolo.solo.pg.dev.nr
    have hreq : s.tr.w.dev.reqs.take s.tr.w.dev.done = (s.tr.w.cl i).got.map (·.1.send) := by
      apply List.ext_getElem
      · rw [List.length_take, List.length_map]; omega
      · intro k k1 k2
        rw [List.length_map] at k2
        rw [List.getElem_take, List.getElem_map]
        have hent := (hsolo.solo.gi.ent i _ (List.getElem_mem k2)).1
        have hnum : ((s.tr.w.cl i).got[k]).2.1 = k := by
          have := congrArg (fun l => l[k]?) hsolo.solo.num
          simp only [List.getElem?_map] at this
          rw [List.getElem?_eq_getElem k2, List.getElem?_eq_getElem (by simpa using k2)] at this
          simpa using this
        rw [hnum] at hent
        exact (List.getElem?_eq_some_iff.1 hent).2
    rw [hreq, hsolo.solo.sz] at h1
    rw [← h2 hsolo.solo.hung]
    exact h1.det hsv
  rw [henv]; exact k2

end

/-! ### Non-vacuity -/

theorem analyzeLoop_ne {σ : Type} {tg : Target σ} {v : Ver} : ∀ (fuel : Nat) (t : List W) (m : σ) (reply r : List W) (m' : σ), reply ≠ [] →
    analyzeLoop v tg fuel t m reply = .done r m' → r ≠ [] := by
  intro fuel
  induction fuel with
  | zero => intro t m reply r m' _ h; cases h
  | succ fuel ih =>
    intro t m reply r m' hne h
    cases t with
    | nil => cases h
    | cons w t =>
      rw [analyzeLoop] at h
      split at h
      · cases h
      · split at h
        · cases h
        · split at h
          · cases h
          · cases h
          · split at h
            · cases h
              intro hx
              exact hne (List.append_eq_nil_iff.1 hx).1
            · refine ih _ _ _ _ _ ?_ h
              intro hx
              exact hne (List.append_eq_nil_iff.1 hx).1

/-- `DummyHardware` as the device behind the pages: no answer is empty, so that the set-up is as `PHyp` asks. -/
theorem dummy_phyp {σ : Type} (tg : Target σ) {c : Cfg} (hv : c.ver = .v2) (hh : c.hub = none) {ps : Nat → PCfg} {pages size start : Nat} {count0 : W} {d : Dev σ}
    (h0 : 0 < pages) (h1 : 4 + pages * size ≤ 2 ^ 30) (h2 : 2 ≤ size) (h3 : size ≤ 4096) (h4 : size % 2 = 0) (hk : ∀ i, (ps i).kind ≠ .intr) :
    PHyp ps (viaHub c tg) (PW.init ps pages size start count0 d).dev := by
  refine ⟨h0, h1, h2, by show size ≤ _; omega, hk, fun _ _ => ⟨h3, h4⟩, ?_⟩
  intro e q r e' h
  simp only [viaHub, hh, hv, dummyReply] at h
  repeat' split at h
  all_goals first
    | (exfalso; cases h; done)
    | (cases h; refine analyzeLoop_ne _ _ _ _ _ _ ?_ ‹_›; simp)

/-- C16 over the PCIe and mmap clients with `DummyHardware` behind the pages: no hypothesis on the device is left. -/
theorem C16_paged_dummy {c : Cfg} {ps : Nat → PCfg} {i pages size start : Nat} {count0 : W} (hw : WF c) (hcap : CapOK c) (hr : Roomy c) (hv : c.ver = .v2) (hh : c.hub = none)
    (hs : c.maxSend.toNat ≤ 4 * (size - 1)) (hp : c.maxReply.toNat ≤ 4 * (size - 1)) (h0 : 0 < pages) (h1 : 4 + pages * size ≤ 2 ^ 30) (h2 : 2 ≤ size)
    (h3 : size ≤ 4096) (h4 : size % 2 = 0) (hk : ∀ i, (ps i).kind ≠ .intr) (cfg : W → W) (m : W → W) (last : W) (ops : List Op)
    (hops : ∀ op ∈ ops, op.ok c ∧ op.maskOK c.wrapNeg) (plan : List (List PAct)) (hplan : ∀ as ∈ plan, ∀ a ∈ as, a.tame i) (rs : List Res) (s : St (PagedT (Dev (W → W))))
    (h : runOps c (pagedT c ps (viaHub c (dummyTarget cfg)) i) (ops ++ [.dispatch])
      (St.init (PagedT.init ps pages size start count0 ⟨m, last⟩ plan)) = some (rs, s)) :
    rs.map (resShow c.wrapNeg (s.tr.w.cl i).heap) = (seqRun c.ver (dummyTarget cfg) (ops ++ [.dispatch]) m).1.map (Option.map ValOut.data) ∧
    s.tr.w.dev.env.mem = (seqRun c.ver (dummyTarget cfg) (ops ++ [.dispatch]) m).2 :=
  C16_paged_device hw hcap hr hv (dummy_conforms _ c) hs hp (dummy_phyp _ hv hh h0 h1 h2 h3 h4 hk) ops hops plan hplan rs s h

/-- Packets of at most three reads, in pages of eight words. -/
def pageCfg : Cfg := ⟨.v2, none, 28, 28, true⟩

example : WF pageCfg ∧ CapOK pageCfg ∧ Roomy pageCfg ∧ pageCfg.maxSend.toNat ≤ 4 * (8 - 1) ∧ pageCfg.maxReply.toNat ≤ 4 * (8 - 1) :=
  ⟨⟨by decide, by decide, by decide⟩, by unfold CapOK; decide, ⟨by decide, by decide⟩, by decide, by decide⟩

/-- A program of client 0 over PCIe; `steps`: what happens in each call of the transport. -/
def pagedProg (k : PKind) (ops : List Op) (steps : List (List PAct)) : Option (List Res × St (PagedT (Dev (W → W)))) :=
  runOps pageCfg (pagedT pageCfg (allOf k 2) (viaHub pageCfg (dummyTarget fun _ => 0)) 0) ops
    (St.init (PagedT.init (allOf k 2) 4 8 0 0xFFFFFFFF#32 ⟨fun _ => 5, 0⟩ steps))

/-- Two packets: three reads and a write; then a read of what was written; the device works in between. -/
def pagedOps : List Op := [.read 0x10, .read 0x11, .read 0x12, .write 0x13 7, .dispatch, .read 0x13]

def pagedSteps : List (List PAct) :=
  [[.connect 0, .flock 0, .start 0, .write 0], [.write 0, .dev], [.poll 0, .fetch 0, .dev, .poll 0, .fetch 0, .unlock 0, .finish 0],
   [.flock 0, .start 0, .write 0], [.dev, .poll 0, .fetch 0, .unlock 0, .finish 0]]

/-- The hypotheses of `C16_paged_dummy` hold. -/
example : (∀ op ∈ pagedOps, op.ok pageCfg ∧ op.maskOK pageCfg.wrapNeg) ∧ (∀ as ∈ pagedSteps, ∀ a ∈ as, a.tame 0) := by
  constructor
  · intro op h
    simp only [pagedOps, List.mem_cons, List.not_mem_nil, or_false] at h
    rcases h with rfl | rfl | rfl | rfl | rfl | rfl <;> exact ⟨trivial, trivial⟩
  · intro as has a ha
    simp only [pagedSteps, List.mem_cons, List.not_mem_nil, or_false] at has
    rcases has with rfl | rfl | rfl | rfl | rfl <;> simp only [List.mem_cons, List.not_mem_nil, or_false] at ha <;> 
      (repeat' rcases ha with rfl | ha) <;> (try subst ha) <;> simp [PAct.tame, PAct.who]

example : (pagedProg .poll (pagedOps ++ [.dispatch]) pagedSteps).map (fun p => (p.1.map (resShow true (p.2.tr.w.cl 0).heap), p.2.tr.w.dev.env.mem 0x13)) = some
    ([some (.data [5]), some (.data [5]), some (.data [5]), some (.data []), some (.data []), some (.data [7]), some (.data [])], 7) := by decide +kernel

example : (pagedProg .mmap (pagedOps ++ [.dispatch]) pagedSteps).map (fun p => (p.1.map (resShow true (p.2.tr.w.cl 0).heap), p.2.tr.w.dev.env.mem 0x13)) = some
    ([some (.data [5]), some (.data [5]), some (.data [5]), some (.data []), some (.data []), some (.data [7]), some (.data [])], 7) := by decide +kernel

/-- For the other theorems: the first call fails (the device does not answer in time), a second one succeeds. -/
example : (pagedProg .poll [.read 0x10, .dispatch, .read 0x11, .dispatch] [[.connect 0, .flock 0, .start 0, .write 0], [.fail 0],
      [.dev, .connect 0, .flock 0, .start 0, .write 0], [.dev, .poll 0, .fetch 0, .unlock 0, .finish 0]]).map
    (fun p => (p.1.map (resShow true (p.2.tr.w.cl 0).heap), p.2.tr.outcomes.map fun x => (x.1.send, x.2))) = some
    ([some .nonValidated, none, some (.data [5]), some (.data [])],
     [([0x200000F0, 0x2000010F, 0x10], none), ([0x200000F0, 0x2000010F, 0x11], some [0x200000F0, 0x20000100, 5])]) := by decide +kernel

/-- Violation of C17, and of C12 (as `C27_violated_stale`, as a program). Register 0x10 holds 5, register 0x20 holds 6. The read of 0x10 fails
(the device does not answer in time). The program goes on with a read of 0x20: it succeeds, with the value 5. -/
theorem C17_violated_paged :
    (runOps pageCfg (pagedT pageCfg (allOf .poll 2) (viaHub pageCfg (dummyTarget fun _ => 0)) 0) [.read 0x10, .dispatch, .read 0x20, .dispatch]
      (St.init (PagedT.init (allOf .poll 2) 4 8 0 0xFFFFFFFF#32 ⟨fun a => if a = 0x20 then 6 else 5, 0⟩
        [[.connect 0, .flock 0, .start 0, .write 0], [.fail 0], [.connect 0, .flock 0, .start 0, .dev, .write 0],
         [.poll 0, .fetch 0, .unlock 0, .finish 0]]))).map
    (fun p => (p.1.map (resShow true (p.2.tr.w.cl 0).heap), p.2.tr.w.dev.env.mem 0x20)) =
    some ([some .nonValidated, none, some (.data [5]), some (.data [])], 6) := by decide +kernel

end Verif
