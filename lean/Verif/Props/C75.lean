import Verif.Lemmas.PcieProg
import Verif.Props.C26
/-!
# C75: the PCIe test target

Any number of clients of `PCIeDummyHardware`, and programs of one client. Here the target is the program that reads the FIFO and writes the file, not the device of
`Verif/Model/Paged.lean`, which answers in one step and is told of a request when it has been written to a page.
-/

set_option autoImplicit false
set_option linter.unusedSimpArgs false

namespace Verif.PcieDummy
open Verif.Dummy
open Verif.Spec

/-- The slaves: 2^24 words of memory, and the words of the configuration space that belong to the process. -/
def slaves (pid : BitVec 16) : Target (W → W) := dummyTarget fun a => if a.toNat < 10 then pid.setWidth 32 <<< 16 ||| a else 0#32

theorem slaves_eq (pid : BitVec 16) : tgOf (DH.init pid false).cfg = slaves pid := by
  unfold tgOf slaves
  congr 1
  funext a
  show ((List.range 10).map fun i => pid.setWidth 32 <<< 16 ||| BitVec.ofNat 32 i).getD a.toNat 0 = _
  rw [List.getD_eq_getElem?_getD, List.getElem?_map]
  by_cases h : a.toNat < 10
  · rw [List.getElem?_range h, if_pos h]
    simp
  · rw [List.getElem?_eq_none (by simp; omega), if_neg h]
    rfl

/-- Requests of the kind that the target can be sent. -/
theorem isReq_of {pid : BitVec 16} {s : Prop} {q : List W} (h : PageRequest (slaves pid) 359 q) (hs : s → SafeReads q) : IsReq (DH.init pid false).cfg s q := by
  obtain ⟨txns, h1, h2⟩ := h.parses
  refine ⟨h.parses, ⟨?_, by have := h.length; omega⟩, ?_, fun hx => ⟨rfl, hs hx⟩⟩
  · cases q with
    | nil => cases h1
    | cons => simp
  · intro e r e' hr
    rw [slaves_eq] at hr
    obtain ⟨body, m, b1, _, b3⟩ := dummyReply_ok .v2 (slaves pid) e q txns h1 h2
    rw [b1] at hr
    cases hr
    have := h.reply txns _ _ h1 b3
    have hl : (pktEcho .v2 q).length = 1 := by
      cases q with
      | nil => cases h1
      | cons => rfl
    unfold Fits
    rw [List.length_append, hl]
    omega

theorem answered_of {pid : BitVec 16} {e e' : Dev (W → W)} {qs as : List (List W)} (h : Served (dummyReply .v2 (slaves pid)) 360 e qs as e')
    (hq : ∀ q ∈ qs, IsReq (DH.init pid false).cfg False q) : Answered (slaves pid) e.mem qs as e'.mem := by
  induction h with
  | nil => exact .nil
  | @snoc e2 e3 qs as q r h1 h2 ih =>
    have hr := hq q (by simp)
    obtain ⟨txns, t1, t2⟩ := hr.parses
    obtain ⟨body, m, b1, b2, b3⟩ := dummyReply_ok .v2 (slaves pid) e2 q txns t1 t2
    have hf := hr.answer e2 r e3 (by rw [slaves_eq]; exact h2)
    unfold Fits at hf
    rw [b1] at h2
    cases h2
    rw [List.take_of_length_le (by omega)]
    have hpe : pktEcho .v2 q = q.take 1 := by
      cases q with
      | nil => cases t1
      | cons => rfl
    rw [hpe]
    show Answered _ _ _ _ m
    rw [b2]
    exact .snoc (ih fun q' h' => hq q' (by simp [h'])) t1 t2 b3

theorem okFor_weaken {cfg : List W} {s : Prop} {q : List W} (h : IsReq cfg s q) : IsReq cfg False q := ⟨h.parses, h.fits, h.answer, False.elim⟩

section
variable {c : Cfg} {ps : Nat → PCfg} {pid : BitVec 16} {as : List PAct} {w : FW} (hw : w = (FW.init ps pid false).sched c ps as) (hk : ∀ i, (ps i).kind ≠ .intr)
  (hreq : ∀ i b, PAct.call i b ∈ as → PageRequest (slaves pid) 359 b.send) (hr : w.raced = false) (hl : w.late = false)
include hw hk hreq hr hl

theorem reach (s : Prop) (hs : s → ∀ i b, PAct.call i b ∈ as → SafeReads b.send) :
    ∃ v, All (DH.init pid false).cfg s c ps ⟨fun _ => 0#32, 0x200000f0#32⟩ w v := by
  subst hw
  obtain ⟨as', _, h⟩ := (All.init s c ps pid hk).sched as (by
    intro a ha
    cases a <;> try trivial
    rename_i i b
    exact isReq_of (hreq i b ha) fun hx => hs hx i b ha) hr hl
  exact ⟨_, h⟩

/-- C75. Clients of the PCIe test target, in any number, sharing it in any way (but for the races of C29 and the late starts of C27): the target reads the requests `qs` out of the
FIFO one by one and answers them in turn, with the answers `ans` that the specification demands; everything that a client reads is the answer to its own request, that answer is
never read a second time, and each client reads in the order of its requests. The target neither returns from its loop nor is its behaviour undefined. Whenever it waits, its
memory is what the requests answered so far make of it. -/
theorem C75_replies_partial : ∃ qs ans m, Answered (slaves pid) (fun _ => 0#32) qs ans m ∧ w.done = qs.length ∧
    (∀ i, ∀ x ∈ (w.cl i).got, ∃ a, qs[x.2.1]? = some x.1.send ∧ ans[x.2.1]? = some a ∧ x.2.2.2.1 = a.take x.1.replyWords) ∧
    (∀ i, ((w.cl i).got.map (·.2.1)).Pairwise (· < ·)) ∧
    (∀ i j, i ≠ j → ∀ x ∈ (w.cl i).got, ∀ y ∈ (w.cl j).got, x.2.1 ≠ y.2.1) ∧
    w.dev.phase ≠ .returned ∧ w.dev.phase ≠ .undefined ∧ (w.dev.phase = .poll → w.dev.hw.mem = m) := by
  obtain ⟨v, h⟩ := reach hw hk hreq hr hl False False.elim
  obtain ⟨e', h1, h2⟩ := h.pg.dev.served
  rw [slaves_eq, h.rel.dev.size] at h1
  have hcl : ∀ i, w.cl i = v.cl i := congrFun h.rel.same.cl
  have hle : v.dev.done ≤ v.dev.reqs.length := by rw [h.pg.dev.nr]; exact h.pg.dev.le
  refine ⟨v.dev.reqs.take v.dev.done, v.dev.ans, e'.mem, answered_of h1 fun q hq => h.rel.dev.reqs q (List.mem_of_mem_take hq), ?_, ?_, ?_, ?_, ?_, ?_, ?_⟩
  · rw [h.rel.done, List.length_take]; omega
  · intro i x hx
    rw [hcl] at hx
    obtain ⟨g1, _, ⟨a, g3, g4⟩, _⟩ := h.gi.ent i x hx
    refine ⟨a, ?_, g3, g4⟩
    have := (List.getElem?_eq_some_iff.1 g3).1
    rw [h.pg.dev.na] at this
    rw [List.getElem?_take_of_lt this]; exact g1
  · intro i; rw [hcl]; exact h.gi.ord i
  · intro i j; rw [hcl, hcl]; exact h.gi.dis i j
  · intro hx
    have := h.rel.dev.ph
    unfold PRel at this
    rw [hx] at this; exact this
  · intro hx
    have := h.rel.dev.ph
    unfold PRel at this
    rw [hx] at this; exact this
  · intro hx
    have := h.rel.dev.ph
    unfold PRel at this
    rw [hx] at this
    have he := h2 h.rel.dev.hung
    rw [he, this.2.env]

/-- C75. If the requests read no more than there is in the configuration space, then the target is never stuck: from wherever it is, five steps for each request that it has not yet
answered are enough for it to answer them all. -/
theorem C75_progress_partial (hs : ∀ i b, PAct.call i b ∈ as → SafeReads b.send) :
    (w.sched c ps (List.replicate (5 * (w.written - w.done)) .dev)).done = w.written ∧
    (w.sched c ps (List.replicate (5 * (w.written - w.done)) .dev)).dev.phase = .poll := by
  obtain ⟨v, h⟩ := reach hw hk hreq hr hl True fun _ => hs
  exact h.works _ hr hl (by unfold FW.rest; omega)

end

/-! ## Programs -/

section
variable {c : Cfg} {ps : Nat → PCfg} {pid : BitVec 16} {i : Nat}

/-- At the end of a program nothing is left over. -/
theorem drained {σ ρ : Type} {tg : Target σ} {mem : ρ → σ} {resp : ρ → List W → Option (List W) × ρ} {pages size start : Nat} {count0 : W} {e : ρ}
    (hw : WF c) (hcap : CapOK c) (hr : Roomy c) (hv : c.ver = .v2) (hc : Conforms c tg mem resp)
    (hs : c.maxSend.toNat ≤ 4 * (size - 1)) (hp : c.maxReply.toNat ≤ 4 * (size - 1))
    (hph : PHyp ps resp (PW.init ps pages size start count0 e).dev) (ops : List Op) (hops : ∀ op ∈ ops, op.ok c ∧ op.maskOK c.wrapNeg)
    (plan : List (List PAct)) (hplan : ∀ as ∈ plan, ∀ a ∈ as, a.tame i) (rs : List Res) (s : St (PagedT ρ))
    (h : runOps c (pagedT c ps resp i) (ops ++ [.dispatch]) (St.init (PagedT.init ps pages size start count0 e plan)) = some (rs, s)) :
    s.tr.w.dev.done = s.tr.w.dev.reqs.length := by
  have hsolo := paged_solo hw hcap (fun _ => hr) hv hc hs hp hph (ops ++ [.dispatch])
    (by intro op ho
        rcases List.mem_append.1 ho with ho | ho
        · exact (hops op ho).1
        · rw [List.mem_singleton.1 ho]; trivial) plan hplan rs s h
  obtain ⟨e', hf, as, hsv⟩ := hsolo.solo.fol
  rw [← hsolo.out] at hf
  have hq : (s.tr.w.cl i).queue = [] := by
    obtain ⟨sched, s', h1, hR, _⟩ := paged_refines _ plan rs s h hf
    obtain ⟨rs1, s1, g1, _, _, _, g2⟩ := refinement_log hw hcap (fun _ => hr) hc ops hops e sched
    rw [h1] at g1; cases g1
    rw [hR.pend] at g2
    exact List.map_eq_nil_iff.1 g2
  rw [hsolo.solo.done hq, hsolo.solo.pg.dev.nr]

/-- C75, C16. A program whose client is alone with the PCIe test target, without failures: the steps of the client and of the target are interleaved in any way, the requests go through
the FIFO, the target is the program that analyses packets word by word. Every program that ends with a dispatch and comes to an end gives what the calls give one at a time, and leaves
the target's memory as they do. -/
theorem C75_program (hw : WF c) (hcap : CapOK c) (hr : Roomy c) (hv : c.ver = .v2) (hh : c.hub = none) (hs : c.maxSend.toNat ≤ 4 * 359) (hp : c.maxReply.toNat ≤ 4 * 359)
    (hk : ∀ i, (ps i).kind ≠ .intr) (ops : List Op) (hops : ∀ op ∈ ops, op.ok c ∧ op.maskOK c.wrapNeg) (plan : List (List PAct)) (hplan : ∀ as ∈ plan, ∀ a ∈ as, a.tame i)
    (rs : List Res) (s : St FT) (h : runOps c (fifoT c ps i) (ops ++ [.dispatch]) (St.init (FT.init ps pid plan)) = some (rs, s)) :
    rs.map (resShow c.wrapNeg (s.tr.w.cl i).heap) = (seqRun .v2 (slaves pid) (ops ++ [.dispatch]) fun _ => 0#32).1.map (Option.map ValOut.data) ∧
    s.tr.w.dev.hw.mem = (seqRun .v2 (slaves pid) (ops ++ [.dispatch]) fun _ => 0#32).2 := by
  have hops' : ∀ op ∈ ops ++ [.dispatch], op.ok c := by
    intro op ho
    rcases List.mem_append.1 ho with ho | ho
    · exact (hops op ho).1
    · rw [List.mem_singleton.1 ho]; trivial
  have hconf : Conforms c (tgOf (DH.init pid false).cfg) Dev.mem (dummyReply .v2 (tgOf (DH.init pid false).cfg)) := by
    have := dummy_conforms (tg := tgOf (DH.init pid false).cfg) c
    have e : viaHub c (tgOf (DH.init pid false).cfg) = dummyReply .v2 (tgOf (DH.init pid false).cfg) := by
      funext d ws
      simp only [viaHub, hh, hv]
    rw [e] at this; exact this
  have hall := All.init (s := False) c ps pid hk
  have hbuf : ∀ b ∈ s.hist, PB c (dummyReply .v2 (tgOf (DH.init pid false).cfg)) 360 b ∧ IsReq (DH.init pid false).cfg False b.send := by
    intro b hb
    obtain ⟨f, hf, rfl⟩ := run_fin hw _ hops' rs s h b hb
    have hpb := pb_fin hw hcap (fun _ => hr) hv hconf (size := 360) hs hp (by omega) hf
    refine ⟨hpb, ?_, hpb.fits, ?_, False.elim⟩
    · have := parse_fin hf
      rw [hv, hh] at this
      exact ⟨_, this, by simpa using fin_ne hf (fun _ => hr)⟩
    · intro e r e' hres
      obtain ⟨r1, e1, h1, h2, _⟩ := hpb.ans e
      rw [hres] at h1
      cases h1
      have := hpb.room
      exact ⟨List.length_pos_iff.2 (hall.hp.ne _ _ _ _ hres), by omega⟩
  have hsolo := (SoloT.init (c := c) (i := i) [] (by intro _ h; cases h) hall.hp).solo
  obtain ⟨_, s1, h1, h2⟩ := sim_run (h0 := []) (h0' := []) (fifo_sim s.tr.trace) (ops ++ [.dispatch])
    (s' := St.init (PagedT.init ps 3 360 0 0#32 ⟨(DH.init pid false).mem, (DH.init pid false).last⟩ s.tr.trace)) h ⟨hbuf, List.prefix_refl _⟩
    ⟨rfl, rfl, rfl, rfl, ⟨hall, hsolo, rfl, hplan, (by intro _ h; cases h), rfl⟩, [], rfl, rfl⟩
  rw [resShift0] at h1
  have hR := h2.tr
  obtain ⟨k1, k2⟩ := C16_paged_device hw hcap hr hv hconf (size := 360) hs hp hall.hp ops hops _ hR.trace rs s1 h1
  have hd := drained hw hcap hr hv hconf (size := 360) hs hp hall.hp ops hops _ hR.trace rs s1 h1
  have hcl : s.tr.w.cl i = s1.tr.w.cl i := congrFun hR.all.rel.same.cl i
  rw [hcl, ← slaves_eq, k1, hv]
  refine ⟨rfl, ?_⟩
  have hph : s.tr.w.dev.phase = .poll := by
    by_cases hx : s.tr.w.dev.phase = .poll
    · exact hx
    · have := hR.all.pending hx
      rw [hR.all.rel.done, hR.all.rel.written, hd, hR.all.pg.dev.nr] at this
      omega
  have := hR.all.rel.dev.ph
  unfold PRel at this
  rw [hph] at this
  have he := this.2.env
  rw [hv] at k2
  rw [show (fun _ => 0#32 : W → W) = (DH.init pid false).mem from rfl]
  rw [← k2, he]

end

/-! ## Examples -/

/-- Client 1 connects; client 0 sends two packets, a write to 0x10 and a read; then client 1 reads 0x10. The target works meanwhile. -/
def demoPcie : List PAct :=
  [.connect 1] ++ sendBy 0 (pkt writePkts 0) ++ sendBy 0 (pkt readPkts 1) ++ List.replicate 7 .dev ++ [.callFlush 0, .poll 0, .fetch 0] ++ List.replicate 3 .dev ++
  [.poll 0, .fetch 0, .unlock 0, .finish 0] ++ sendBy 1 (pkt readPkts 0) ++ List.replicate 5 .dev ++ flushBy 1

def pcieRun (as : List PAct) : FW := (FW.init (allOf .poll 2) 7 false).sched (demoCfg .v2) (allOf .poll 2) as

/-- Packets with one transaction. -/
theorem one_request {q : List W} {id : Nat} {t : Txn} (hq : parsePacket .v2 q = some (0, [(id, t)])) (hl : q.length ≤ 359)
    (hr : ∀ m, ∃ ws, (execTxns .v2 (slaves 7) [t] m).1 = [ws] ∧ ws.length ≤ 100) (hc : ∀ a n, t ≠ .cfgRead a n) :
    PageRequest (slaves 7) 359 q ∧ SafeReads q := by
  refine ⟨⟨⟨_, hq, by simp⟩, hl, ?_⟩, ?_⟩
  · intro txns m body h1 h2
    rw [hq] at h1
    cases h1
    obtain ⟨ws, e1, e2⟩ := hr m
    simp only [List.map_cons, List.map_nil] at h2
    rw [e1] at h2
    cases h2 with
    | cons _ h3 => cases h3; simp; omega
  · intro txns h1 x hx a n hn
    rw [hq] at h1
    cases h1
    rw [List.mem_singleton.1 hx] at hn
    exact absurd hn (hc a n)

/-- The hypotheses of the theorems hold for this schedule. -/
example : (∀ i b, PAct.call i b ∈ demoPcie → PageRequest (slaves 7) 359 b.send ∧ SafeReads b.send) ∧ (pcieRun demoPcie).raced = false ∧ (pcieRun demoPcie).late = false := by
  refine ⟨?_, by decide +kernel, by decide +kernel⟩
  intro i b h
  have hb : b = pkt writePkts 0 ∨ b = pkt readPkts 1 ∨ b = pkt readPkts 0 := by
    simp [demoPcie, sendBy, flushBy, List.mem_replicate] at h
    rcases h with h | h | h
    · exact .inl h.2
    · exact .inr (.inl h.2)
    · exact .inr (.inr h.2)
  rcases hb with rfl | rfl | rfl
  · exact one_request (id := 0) (t := .write true 0x10 [1]) (by decide +kernel) (by decide +kernel) (fun _ => ⟨[], rfl, by decide⟩) (fun _ _ h => by cases h)
  · exact one_request (id := 1) (t := .read true 0x20 1) (by decide +kernel) (by decide +kernel) (fun m => ⟨[_], rfl, show 1 ≤ 100 by decide⟩) (fun _ _ h => by cases h)
  · exact one_request (id := 0) (t := .read true 0x10 1) (by decide +kernel) (by decide +kernel) (fun m => ⟨[_], rfl, show 1 ≤ 100 by decide⟩) (fun _ _ h => by cases h)

/-- What the clients have read. -/
example : ((pcieRun demoPcie).cl 0).got.map (fun x => (x.2.1, x.2.2.1, x.2.2.2.1)) = [(0, 0, [0x200000f0, 0x20000110]), (1, 1, [0x200000f0, 0x20010100, 0])] ∧
    ((pcieRun demoPcie).cl 1).got.map (fun x => (x.2.1, x.2.2.1, x.2.2.2.1)) = [(2, 2, [0x200000f0, 0x20000100, 1])] ∧
    (pcieRun demoPcie).dev.hw.mem 0x10 = 1 := by decide +kernel

/-- For `C75_progress_partial`: two requests are waiting, and the target has read the header of the first. -/
example : let w := pcieRun (sendBy 0 (pkt writePkts 0) ++ sendBy 0 (pkt readPkts 1) ++ [.dev])
    w.written - w.done = 2 ∧ w.dev.phase = .head 4 := by decide +kernel

/-- A client with pages of 360 words. -/
def pcieCfg : Cfg := ⟨.v2, none, 4 * 359, 4 * 359, true⟩

example : WF pcieCfg ∧ CapOK pcieCfg ∧ Roomy pcieCfg ∧ pcieCfg.maxSend.toNat ≤ 4 * 359 ∧ pcieCfg.maxReply.toNat ≤ 4 * 359 :=
  ⟨⟨by decide, by decide, by decide⟩, by unfold CapOK; decide, ⟨by decide, by decide⟩, by decide, by decide⟩

def pcieProg (ops : List Op) (steps : List (List PAct)) : Option (List Res × St FT) :=
  runOps pcieCfg (fifoT pcieCfg (allOf .poll 2) 0) ops (St.init (FT.init (allOf .poll 2) 7 steps))

def pcieOps : List Op := [.write 0x13 7, .read 0x13, .readConfig 3 0xFFFFFFFF]

def pcieSteps : List (List PAct) :=
  [[.connect 0, .flock 0, .start 0, .dev, .write 0, .dev, .dev], [.dev, .dev, .poll 0, .dev, .dev, .poll 0, .fetch 0, .unlock 0, .finish 0]]

/-- The hypotheses of `C75_program` hold. -/
example : (∀ op ∈ pcieOps, op.ok pcieCfg ∧ op.maskOK pcieCfg.wrapNeg) ∧ (∀ as ∈ pcieSteps, ∀ a ∈ as, a.tame 0) := by
  constructor
  · intro op h
    simp only [pcieOps, List.mem_cons, List.not_mem_nil, or_false] at h
    rcases h with rfl | rfl | rfl <;> exact ⟨trivial, by first | trivial | decide⟩
  · intro as has a ha
    simp only [pcieSteps, List.mem_cons, List.not_mem_nil, or_false] at has
    rcases has with rfl | rfl <;> simp only [List.mem_cons, List.not_mem_nil, or_false] at ha <;>
      (repeat' rcases ha with rfl | ha) <;> (try subst ha) <;> simp [PAct.tame, PAct.who]

example : (pcieProg (pcieOps ++ [.dispatch]) pcieSteps).map (fun p => (p.1.map (resShow true (p.2.tr.w.cl 0).heap), p.2.tr.w.dev.hw.mem 0x13)) = some
    ([some (.data []), some (.data [7]), some (.data [0x70003]), some (.data [])], 7) := by decide +kernel

/-! ## What goes wrong -/

/-- A read of the eleventh word of the configuration space. -/
def cfgPkt : Buf := pkt (progPkts [] [.readConfig 10 0xFFFFFFFF, .dispatch]) 0

theorem aborted_stays {w : FW} (h : w.dev.phase = .aborted) (n : Nat) : w.sched (demoCfg .v2) (allOf .poll 2) (List.replicate n .dev) = w := by
  induction n with
  | zero => rfl
  | succ n ih =>
    have e : w.act (demoCfg .v2) (allOf .poll 2) .dev = w := by
      have e1 : w.dev.step = w.dev := by unfold FDev.step; rw [h]
      show { w with dev := w.dev.step, done := if w.dev.phase = .status then w.done + 1 else w.done } = w
      rw [e1, h]
      rfl
    show (w.act (demoCfg .v2) (allOf .poll 2) .dev).sched (demoCfg .v2) (allOf .poll 2) (List.replicate n .dev) = w
    rw [e]; exact ih

/-- Violation of C75. A client reads a word of the configuration space that the target does not have. The exception of `std::vector::at` is not caught: the target's thread is gone, and
neither this request nor any other is ever answered. -/
theorem C75_violated_config (n : Nat) : let w := pcieRun (sendBy 0 cfgPkt ++ [.dev, .dev] ++ List.replicate n .dev)
    w.dev.phase = .aborted ∧ w.written = 1 ∧ w.done = 0 := by
  have e : pcieRun (sendBy 0 cfgPkt ++ [.dev, .dev] ++ List.replicate n .dev) = pcieRun (sendBy 0 cfgPkt ++ [.dev, .dev]) := by
    show ((sendBy 0 cfgPkt ++ [PAct.dev, PAct.dev]) ++ List.replicate n PAct.dev).foldl _ _ = _
    rw [List.foldl_append]
    exact aborted_stays (by decide +kernel) n
  rw [e]
  decide +kernel

/-- Violation of C75. A packet with an ID that is not expected, which clients of the library never send, is not ignored: a page is published that pretends to hold 65536 words. -/
theorem C75_violated_id : let b : Buf := ⟨[0x200005f0, 0x2000010f, 0x10], (pkt readPkts 0).reply, []⟩
    let w := pcieRun (sendBy 0 b ++ List.replicate 5 .dev)
    w.done = 1 ∧ w.dev.count = 1 ∧ pageWords (w.dev.file 4) = 65536 := by decide +kernel

/-- Two reads of 255 words. -/
def longRead : Buf := ⟨[0x200000f0, 0x2000ff0f, 0, 0x2001ff0f, 0], [⟨.pkt 0, 1⟩], []⟩

/-- Violation of C75. A reply that does not fit in its page, which clients of the library never ask for, is written over the next page, where there is a reply that has not been read yet:
the page now announces 0 words, and the client reads nothing. -/
theorem C75_violated_reply :
    let as := sendBy 0 (pkt readPkts 0) ++ List.replicate 5 .dev ++ flushBy 0 ++ sendBy 0 (pkt readPkts 1) ++ sendBy 0 (pkt readPkts 2) ++ sendBy 0 longRead ++
      List.replicate 15 .dev ++ [.callFlush 0, .poll 0, .fetch 0]
    let w := (FW.init (allOf .poll 3) 7 false).sched (demoCfg .v2) (allOf .poll 3) as
    w.done = 4 ∧ (w.cl 0).got.map (fun x => (x.2.1, x.2.2.2.1)) = [(0, [0x200000f0, 0x20000100, 0]), (1, [])] := by decide +kernel

end Verif.PcieDummy
