import Verif.Lemmas.Seq
import Verif.Lemmas.Target
/-!
# C16 Queued, packed, dispatched operations behave like one-at-a-time memory accesses

The specification is `Spec.seqRun`: the calls executed one after the other on the memory of the target. It knows nothing
about packets, headers or replies.
-/

set_option autoImplicit false

namespace Verif
open Spec

theorem Rendered.valid {v : Ver} {ops : List Op} {rs : List Res} {its : List Item} (h : Rendered v ops rs its) (hd : Handle)
    (hm : .ok (some hd) ∈ rs) : ∃ it ∈ its, it.obj = hd.obj ∧ it.last = true := by
  induction h with
  | nil => simp at hm
  | @ok r ops rs its hr hR ih =>
    simp only [List.mem_cons, Res.ok.injEq] at hm
    rcases hm with hm | hm
    · have hk := hr.hok
      rw [← hm] at hk
      obtain ⟨h1, h2⟩ := hk.obj
      obtain ⟨it, i1, i2, i3⟩ := (hr.tiles h2).last
      exact ⟨it, by simp [i1], by rw [i2, h1], i3⟩
    · obtain ⟨it, i1, i2⟩ := ih hm
      exact ⟨it, by simp [i1], i2⟩
  | refused hop hR ih =>
    simp only [List.mem_cons, reduceCtorEq, false_or] at hm
    exact ih hm

section
variable {σ ρ : Type} {c : Cfg} {tg : Target σ} {mem : ρ → σ} {resp : ρ → List W → Option (List W) × ρ}

/-- With what the log says: no reply was refused. -/
theorem refinement_log (hw : WF c) (hcap : CapOK c) (hr : c.ver = .v2 → Roomy c) (hc : Conforms c tg mem resp) (ops : List Op)
    (hops : ∀ op ∈ ops, op.ok c ∧ op.maskOK c.wrapNeg) (e : ρ) (sched : List (Nat × Nat)) :
    ∃ rs s, runOps c (linkT c resp) (ops ++ [.dispatch]) (St.init (Link.init e sched)) = some (rs, s) ∧
      rs.map (resShow c.wrapNeg s.tr.heap) = (seqRun c.ver tg (ops ++ [.dispatch]) (mem e)).1.map (Option.map ValOut.data) ∧
      mem s.tr.env = (seqRun c.ver tg (ops ++ [.dispatch]) (mem e)).2 ∧
      (∀ x ∈ s.tr.log, x.out = .ok) ∧ s.tr.pending = [] := by
  have hinit : RI c (CP c tg mem (mem e)) LF (St.init (Link.init e sched)) [] ⟨[], [], none, 0⟩ := by
    refine RI.init c _ _ _ ?_ rfl
    exact ⟨⟨⟨rfl, trivial, List.prefix_refl _⟩, [], rfl, rfl, by simp, by simp [Link.init]⟩, rfl⟩
  have hops' : ∀ op ∈ ops ++ [.dispatch], op.ok c ∧ op.maskOK c.wrapNeg := by
    intro op ho
    rw [List.mem_append] at ho
    rcases ho with ho | ho
    · exact hops op ho
    · simp at ho; subst ho; exact ⟨trivial, trivial⟩
  obtain ⟨rs, s, G, its, h1, h2, h3, h4, h5⟩ := crun hw hcap hr hc (mem e) (ops ++ [.dispatch]) (fun o ho => (hops' o ho).1) hinit
  refine ⟨rs, s, h1, ?_⟩
  have hcur := h5 (by simp)
  have hch := h2.rep.inv.2
  have hL : LInv c [] s [] [] [] G := ⟨h2.mono (fun _ _ h => h.1), List.Sublist.refl _, rfl, by simp, by simp [Cov]⟩
  have hpend : s.tr.pending = [] := h2.rep.fl hcur
  obtain ⟨logE, d1, d2, q1, q2, q3, q4, q5, q6⟩ := hL.log
  rw [List.nil_append] at q1
  rw [hpend] at q4
  have hd2 : d2 = [] := List.map_eq_nil_iff.1 q4.symm
  rw [hd2, List.append_nil] at q2
  subst q2
  obtain ⟨⟨p1, p2, p3⟩, _⟩ := h2.rep.inv.1
  have hall : G.all = G.done.flatMap Fin'.all := by simp [Gh.all, hcur]
  have hdesc : LogDesc c s.tr.log G.done := by
    refine ⟨by rw [q1]; exact q3, h2.rep.doneOK, ?_, ?_, p2⟩
    · have := h2.nodupAll; unfold allItems at this; simpa [hall] using this
    · have := h2.lastAll; unfold allItems at this; simpa [hall] using this
  have hitems : G.items = G.done.flatMap fun f => f.g.items := by simp [Gh.items, hcur]
  have huser : user (G.done.flatMap Fin'.all) = its := by
    have := user_flatten_all G.done
    rw [← List.flatMap_def] at this
    rw [this, ← hitems, h3]
    rfl
  have hword : ∀ p ∈ s.tr.log.zip G.done, ∀ pre body, p.1.reply = pre ++ body → pre.length = preSlotCount c →
      body.length = (p.2.all.flatMap itemLocs).length → (p.2.all.flatMap itemLocs).map s.tr.heap.word = body := by
    intro p hp pre body hrep hpl hbl
    obtain ⟨i, hi, hpi⟩ := List.getElem_of_mem hp
    rw [List.getElem_zip] at hpi
    simp only [List.length_zip] at hi
    have hsplit : s.tr.log = s.tr.log.take i ++ p.1 :: s.tr.log.drop (i + 1) := by
      have h1 : p.1 = s.tr.log[i] := by rw [← hpi]
      rw [h1, List.getElem_cons_drop, List.take_append_drop]
    have hb : p.1.buf = p.2.buf c := by
      have := hdesc.bufs
      have h1 := congrArg (fun l => l[i]?) this
      simp only [List.getElem?_map] at h1
      rw [List.getElem?_eq_getElem (by omega), List.getElem?_eq_getElem (by omega)] at h1
      simp only [Option.map_some, Option.some.injEq] at h1
      rw [← hpi]; exact h1
    rw [hsplit] at hdesc
    apply List.ext_getElem (by simp [hbl])
    intro j hj1 hj2
    rw [List.getElem_map]
    have hj : j < (p.2.all.flatMap itemLocs).length := by simpa using hj1
    have := (hdesc.word (p := preSlotCount c + j) (l := (p.2.all.flatMap itemLocs)[j]) (by
      rw [hb, fin_locs, List.getElem?_append_right (by rw [preLocs_length]; omega), preLocs_length]
      simp) (by
        obtain ⟨it, _, hit⟩ := List.mem_flatMap.1 (List.getElem_mem hj)
        exact itemLocs_isObj hit)).1
    rw [← hsplit, ← p1] at this
    refine this.trans ?_
    rw [hrep, List.getElem?_append_right (by omega), hpl]
    simp [hj2]
  obtain ⟨v1, v2⟩ := chain_vals hdesc.bufs hdesc.fin hch hword
  obtain ⟨u1, u2⟩ := exec_user (v := c.ver) (tg := tg) (its := G.done.flatMap Fin'.all) (m := mem e)
  rw [huser] at u1 u2
  have hvalid : ∀ hd, .ok (some hd) ∈ rs → s.tr.heap.valid hd.obj = true := by
    intro hd hm
    obtain ⟨it, i1, i2, i3⟩ := h4.valid hd hm
    rw [← huser] at i1
    have i1 := (List.mem_filter.1 i1).1
    obtain ⟨f, hf, hfi⟩ := List.mem_flatMap.1 i1
    rw [p1, replay_valid p2]
    right
    have : f.buf c ∈ logE.map Rx.buf := by rw [q3]; exact List.mem_map_of_mem hf
    obtain ⟨x, hx, hxb⟩ := List.mem_map.1 this
    refine ⟨x, by rw [q1]; exact hx, q5 x hx, ?_⟩
    rw [hxb, fin_adds]
    exact ⟨it, hfi, i3, i2⟩
  obtain ⟨r1, r2⟩ := rendered_show h4 (mem e) hvalid (fun op ho => (hops' op ho).2) (fun p hp => v2 p (u2 p hp))
  exact ⟨r1, by rw [← r2, u1, v1], fun x hx => q5 x (q1 ▸ hx), hpend⟩

/-- C16. Any program with a final dispatch, any interleaving of calls and replies, over any target that executes well-formed
packets: every call is accepted or refused as in the sequential execution, every value read afterwards is that of the
sequential execution, and so is the memory of the target. -/
theorem C16_refinement (hw : WF c) (hcap : CapOK c) (hr : c.ver = .v2 → Roomy c) (hc : Conforms c tg mem resp) (ops : List Op)
    (hops : ∀ op ∈ ops, op.ok c ∧ op.maskOK c.wrapNeg) (e : ρ) (sched : List (Nat × Nat)) :
    ∃ rs s, runOps c (linkT c resp) (ops ++ [.dispatch]) (St.init (Link.init e sched)) = some (rs, s) ∧
      rs.map (resShow c.wrapNeg s.tr.heap) = (seqRun c.ver tg (ops ++ [.dispatch]) (mem e)).1.map (Option.map ValOut.data) ∧
      mem s.tr.env = (seqRun c.ver tg (ops ++ [.dispatch]) (mem e)).2 := by
  obtain ⟨rs, s, h1, h2, h3, _⟩ := refinement_log hw hcap hr hc ops hops e sched
  exact ⟨rs, s, h1, h2, h3⟩

/-- C16 for the test target of the repository (`DummyHardware`), directly connected or behind a ControlHub. -/
theorem C16_dummy (hw : WF c) (hcap : CapOK c) (hr : c.ver = .v2 → Roomy c) (ops : List Op)
    (hops : ∀ op ∈ ops, op.ok c ∧ op.maskOK c.wrapNeg) (cfg m : W → W) (last : W) (sched : List (Nat × Nat)) :
    ∃ rs s, runOps c (linkT c (viaHub c (dummyTarget cfg))) (ops ++ [.dispatch]) (St.init (Link.init ⟨m, last⟩ sched)) = some (rs, s) ∧
      rs.map (resShow c.wrapNeg s.tr.heap) = (seqRun c.ver (dummyTarget cfg) (ops ++ [.dispatch]) m).1.map (Option.map ValOut.data) ∧
      s.tr.env.mem = (seqRun c.ver (dummyTarget cfg) (ops ++ [.dispatch]) m).2 :=
  C16_refinement hw hcap hr (dummy_conforms _ c) ops hops ⟨m, last⟩ sched

end

/-- A program with every kind of access, and what the sequential execution makes of it. -/
def demoProg : List Op := [.write 1 0xAB, .writeMasked 1 0xC 0xF0, .readMasked 1 0xF0, .writeMasked 1 0x10 0xF0, .rmwSum 1 2,
  .dispatch, .writeBlock 4 [7, 8, 9] true, .readBlock 4 3 true, .rmwBits 5 1 0x100, .read 5]

example : (seqRun .v2 (dummyTarget fun _ => 0) (demoProg ++ [.dispatch]) fun _ => 0).1 =
    [some [], some [], some [0xC], none, some [0xCB], some [], some [], some [7, 8, 9], some [8], some [0x100], some []] := by
  decide +kernel

example : (seqRun .v1 (dummyTarget fun _ => 0) (demoProg ++ [.dispatch]) fun _ => 0).1 =
    [some [], some [], some [0xC], none, some [0xCD], some [], some [], some [7, 8, 9], some [0x100], some [0x100], some []] := by
  decide +kernel

/-- Non-vacuity: the program is within the hypotheses. -/
example (v : Ver) : ∃ rs s, runOps (demoHub v) (linkT (demoHub v) (viaHub (demoHub v) (dummyTarget fun _ => 0))) (demoProg ++ [.dispatch])
      (St.init (Link.init ⟨fun _ => 0, 0⟩ [(0, 1)])) = some (rs, s) ∧
      rs.map (resShow true s.tr.heap) =
        (seqRun v (dummyTarget fun _ => 0) (demoProg ++ [.dispatch]) fun _ => 0).1.map (Option.map ValOut.data) := by
  obtain ⟨rs, s, h1, h2, _⟩ := C16_dummy (demoHub_wf v) (demoHubCap v) (fun _ => demoHubRoomy v) demoProg
    (by
      intro op ho
      simp only [demoProg, List.mem_cons, List.not_mem_nil, or_false] at ho
      rcases ho with rfl | rfl | rfl | rfl | rfl | rfl | rfl | rfl | rfl | rfl <;>
        simp [Op.ok, Op.maskOK, MaskOK, demoHub]) (fun _ => 0) (fun _ => 0) 0 [(0, 1)]
  exact ⟨rs, s, h1, h2⟩

end Verif
