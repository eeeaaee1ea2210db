import Verif.Lemmas.Link
import Verif.Props.C11
/-!
# C12 complete replies, C15 failed packets

Programs of client calls over `linkT`: replies of any content and length arrive in any interleaving with the
calls, or fail to arrive. `s.tr.log` is a ghost record of the replies processed.
-/

set_option autoImplicit false

namespace Verif
open Spec
variable {ρ : Type} {c : Cfg} {resp : ρ → List W → Option (List W) × ρ}

theorem errsOf_append (a b : List Rx) : errsOf (a ++ b) = errsOf a ++ errsOf b := by simp [errsOf]

theorem errsOf_ok {l : List Rx} (h : ∀ e ∈ l, e.out = .ok) : errsOf l = [] := by
  unfold errsOf
  rw [List.filterMap_eq_nil_iff]
  intro e he; rw [h e he]

theorem LInv.errs {pre : List Rx} {s : St (Link ρ)} {fs ls : List Fin'} {log0 : List Rx} {G : Gh}
    (h : LInv c pre s fs ls log0 G) : errsOf s.tr.log = errsOf log0 := by
  obtain ⟨logE, d1, d2, q1, q2, q3, q4, q5, q6⟩ := h.log
  rw [q1, errsOf_append, errsOf_ok q5, List.append_nil]

/-- A whole program over `linkT`. -/
theorem lrun (hw : WF c) (hcap : CapOK c) (hr : c.ver = .v2 → Roomy c) (pre : List Rx) (ops : List Op)
    (hops : ∀ op ∈ ops, op.ok c) {s : St (Link ρ)} {fs ls : List Fin'} {log0 : List Rx} {G : Gh}
    (h : LInv c pre s fs ls log0 G) : ∃ rs s' fs' ls' log0' G' L, runOps c (linkT c resp) ops s = some (rs, s') ∧
      LInv c pre s' fs' ls' log0' G' ∧ errsOf s'.tr.log = errsOf s.tr.log ++ L ∧ L.Sublist (excsOf rs) := by
  induction ops generalizing s fs ls log0 G with
  | nil => exact ⟨[], s, _, _, _, _, [], rfl, h, by simp, List.nil_sublist _⟩
  | cons op ops ih =>
    have hs := lstep (resp := resp) hw hcap hr h op (hops op (by simp))
    rw [runOps]
    generalize op.run c (linkT c resp) s = r at hs ⊢
    cases hs with
    | ok hh s' G' its obj inv ext mono real hok tiles disp =>
      obtain ⟨rs, s'', fs', ls', l', G'', L, h1, h2, h3, h4⟩ := ih (fun o ho => hops o (by simp [ho])) inv
      refine ⟨.ok hh :: rs, s'', fs', ls', l', G'', L, ?_, h2, ?_, h4⟩
      · simp only [h1]; rfl
      · rw [h3, inv.errs, h.errs]
    | arg e s' G' inv hitems hop =>
      obtain ⟨rs, s'', fs', ls', l', G'', L, h1, h2, h3, h4⟩ := ih (fun o ho => hops o (by simp [ho])) inv
      refine ⟨.exc e :: rs, s'', fs', ls', l', G'', L, ?_, h2, ?_, h4.cons _⟩
      · simp only [h1]; rfl
      · rw [h3, inv.errs, h.errs]
    | failed e s' fs1 ls1 log1 inv he hlog =>
      obtain ⟨rs, s'', fs', ls', l', G'', L, h1, h2, h3, h4⟩ := ih (fun o ho => hops o (by simp [ho])) inv
      obtain ⟨logE, rfl, hE⟩ := hlog
      rcases hE with ⟨l, x, rfl, hl, hx⟩ | ⟨hl, _⟩
      · refine ⟨.exc e :: rs, s'', fs', ls', l', G'', e :: L, ?_, h2, ?_, h4.cons_cons _⟩
        · simp only [h1]; rfl
        · rw [h3, inv.errs, h.errs, errsOf_append, errsOf_append, errsOf_ok hl]
          simp [errsOf, hx]
      · refine ⟨.exc e :: rs, s'', fs', ls', l', G'', L, ?_, h2, ?_, h4.cons _⟩
        · simp only [h1]; rfl
        · rw [h3, inv.errs, h.errs, errsOf_append, errsOf_ok hl]; simp

theorem runOps_append {τ : Type} (c : Cfg) (T : Transport τ) (a b : List Op) (s : St τ) :
    runOps c T (a ++ b) s = (runOps c T a s).bind fun p => (runOps c T b p.2).map fun q => (p.1 ++ q.1, q.2) := by
  induction a generalizing s with
  | nil =>
    simp only [List.nil_append, runOps, Option.bind_some]
    cases runOps c T b s <;> rfl
  | cons op a ih =>
    rw [List.cons_append, runOps, runOps]
    cases op.run c T s with
    | ok h s' =>
      simp only [ih]
      cases runOps c T a s' with
      | none => rfl
      | some p => simp only [Option.bind_some, Option.map_some]; cases runOps c T b p.2 <;> rfl
    | exc e s' =>
      simp only [ih]
      cases runOps c T a s' with
      | none => rfl
      | some p => simp only [Option.bind_some, Option.map_some]; cases runOps c T b p.2 <;> rfl
    | ub => rfl
    | loops => rfl

/-- Reachable states of a client over `linkT` (`s`), with the results so far. -/
def Reach (c : Cfg) (resp : ρ → List W → Option (List W) × ρ) (ops : List Op) (rs : List Res) (s : St (Link ρ)) : Prop :=
  ∃ e sched, runOps c (linkT c resp) ops (St.init (Link.init e sched)) = some (rs, s)

theorem Reach.inv (hw : WF c) (hcap : CapOK c) (hr : c.ver = .v2 → Roomy c) {ops : List Op} (hops : ∀ op ∈ ops, op.ok c)
    {rs : List Res} {s : St (Link ρ)} (h : Reach c resp ops rs s) :
    ∃ fs ls log0 G, LInv c [] s fs ls log0 G ∧ (errsOf s.tr.log).Sublist (excsOf rs) := by
  obtain ⟨e, sched, h⟩ := h
  obtain ⟨rs', s', fs', ls', l', G', L, h1, h2, h3, h4⟩ := lrun (resp := resp) hw hcap hr [] ops hops (LInv.init c e sched)
  rw [h] at h1; cases h1
  refine ⟨fs', ls', l', G', h2, ?_⟩
  rw [h3]
  exact h4

theorem itemLocs_obj? {it : Item} {l : Loc} (h : l ∈ itemLocs it) : l.obj? = some it.obj := by
  rcases itemLocs_obj h with ⟨k, rfl⟩ | ⟨i, rfl⟩ <;> rfl

theorem fin_adds {f : Fin'} {o : Nat} : o ∈ (f.buf c).adds ↔ ∃ it ∈ f.all, it.last = true ∧ it.obj = o := by
  have : (f.buf c).adds = (mkBuf c ⟨f.g.k, f.all⟩).adds := by
    unfold Fin'.buf patch; cases c.hub <;> rfl
  rw [this]
  unfold mkBuf
  simp only [List.mem_filterMap]
  constructor
  · rintro ⟨it, h1, h2⟩
    split at h2
    · rename_i hl; exact ⟨it, h1, hl, Option.some.inj h2⟩
    · cases h2
  · rintro ⟨it, h1, h2, h3⟩; exact ⟨it, h1, by rw [if_pos h2, h3]⟩

theorem slots_obj {it : Item} {sl : Slot} (h : sl ∈ slots it) : sl.loc.obj? = some it.obj := by
  unfold slots at h
  cases hd : txData it.txn <;> rw [hd] at h <;> simp at h
  · subst h; rfl
  · rcases h with rfl | rfl <;> rfl

theorem fin_touches {f : Fin'} {o : Nat} : (f.buf c).touches o ↔ ∃ it ∈ f.all, it.obj = o := by
  have : (f.buf c).reply = preSlots c f.g.k ++ f.all.flatMap slots := by
    unfold Fin'.buf; rw [patch_reply]; rfl
  unfold Buf.touches
  rw [this]
  constructor
  · rintro ⟨sl, h1, h2⟩
    rw [List.mem_append, List.mem_flatMap] at h1
    rcases h1 with h1 | ⟨it, hit, h1⟩
    · exfalso
      unfold preSlots at h1
      cases hh : c.hub <;> cases hv : c.ver <;> simp [hh, hv] at h1
      all_goals
        first
        | (rcases h1 with rfl | rfl | rfl | rfl <;> cases h2)
        | (rcases h1 with rfl | rfl | rfl <;> cases h2)
        | (subst h1; cases h2)
    · rw [slots_obj h1] at h2; cases h2
      exact ⟨it, hit, rfl⟩
  · rintro ⟨it, hit, rfl⟩
    refine ⟨⟨.hdr it.obj it.hk, 1⟩, ?_, rfl⟩
    rw [List.mem_append, List.mem_flatMap]
    right
    exact ⟨it, hit, by cases hd : txData it.txn <;> simp [slots, hd]⟩

theorem mem_zip_of_mem {log : List Rx} {ls : List Fin'} (h : log.map Rx.buf = ls.map (Fin'.buf c)) {e : Rx} (he : e ∈ log) :
    ∃ f, (e, f) ∈ log.zip ls ∧ e.buf = f.buf c := by
  obtain ⟨i, hi, hei⟩ := List.getElem_of_mem he
  have hl : log.length = ls.length := by simpa using congrArg List.length h
  refine ⟨ls[i]'(by omega), ?_, ?_⟩
  · rw [List.mem_iff_getElem]
    exact ⟨i, by simp only [List.length_zip]; omega, by rw [List.getElem_zip, hei]⟩
  · have : (log.map Rx.buf)[i]'(by simpa using hi) = (ls.map (Fin'.buf c))[i]'(by simp; omega) := by simp only [h]
    simp only [List.getElem_map] at this
    rw [hei] at this
    exact this

theorem zip_buf {log : List Rx} {ls : List Fin'} (h : log.map Rx.buf = ls.map (Fin'.buf c)) {p : Rx × Fin'}
    (hp : p ∈ log.zip ls) : p.1.buf = p.2.buf c := by
  obtain ⟨i, hi, hpi⟩ := List.getElem_of_mem hp
  rw [List.getElem_zip] at hpi
  simp only [List.length_zip] at hi
  have : (log.map Rx.buf)[i]'(by simp; omega) = (ls.map (Fin'.buf c))[i]'(by simp; omega) := by simp only [h]
  simp only [List.getElem_map] at this
  rw [← hpi]; exact this

/-- C15. An object is valid if and only if the packet it was registered with has been answered and the answer
passed validation. -/
theorem C15_valid_iff (hw : WF c) (hcap : CapOK c) (hr : c.ver = .v2 → Roomy c) (ops : List Op) (hops : ∀ op ∈ ops, op.ok c)
    (rs : List Res) (s : St (Link ρ)) (h : Reach c resp ops rs s) (o : Nat) :
    s.tr.heap.valid o = true ↔ ∃ e ∈ s.tr.log, e.out = .ok ∧ o ∈ e.buf.adds := by
  obtain ⟨fs, ls, log0, G, hI, _⟩ := h.inv hw hcap hr hops
  obtain ⟨⟨p1, p2, p3⟩, _⟩ := hI.ri.rep.inv
  rw [p1, replay_valid p2]
  constructor
  · rintro (h | h)
    · cases h
    · exact h
  · exact .inr

/-- C15. If an object is valid then every packet handed to the transport with a part of it has been answered,
and every one of these answers passed validation. -/
theorem C15_complete (hw : WF c) (hcap : CapOK c) (hr : c.ver = .v2 → Roomy c) (ops : List Op) (hops : ∀ op ∈ ops, op.ok c)
    (rs : List Res) (s : St (Link ρ)) (h : Reach c resp ops rs s) (o : Nat) (hv : s.tr.heap.valid o = true) (b : Buf)
    (hb : b ∈ s.hist) (ht : b.touches o) : ∃ e ∈ s.tr.log, e.buf = b ∧ e.out = .ok := by
  obtain ⟨e', he', ho', ha'⟩ := (C15_valid_iff hw hcap hr ops hops rs s h o).1 hv
  obtain ⟨fs, ls, log0, G, hI, _⟩ := h.inv hw hcap hr hops
  obtain ⟨ls', hd, hsep, hsub, hcov⟩ := hI.desc
  obtain ⟨f', hz', hf'⟩ := mem_zip_of_mem hd.bufs he'
  rw [hf', fin_adds] at ha'
  obtain ⟨it', hit', hl', hoo'⟩ := ha'
  have hbf : ∃ f ∈ fs ++ G.done, f.buf c = b := by
    have := hI.ri.rep.hist
    rw [hI.ri.base, ← List.map_append] at this
    rw [this] at hb
    exact List.mem_map.1 hb
  obtain ⟨f, hf, rfl⟩ := hbf
  obtain ⟨it, hit, hio⟩ := fin_touches.1 ht
  obtain ⟨e, hze, heo⟩ := hcov (e', f') hz' ho' it' hit' hl' f hf it hit (by rw [hio, hoo'])
  exact ⟨e, (List.of_mem_zip hze).1, zip_buf hd.bufs hze, heo⟩

/-- C15. A packet that failed validation validates nothing: no object with a slot in it is valid, then or at
any later time. -/
theorem C15_failed_packet (hw : WF c) (hcap : CapOK c) (hr : c.ver = .v2 → Roomy c) (ops : List Op) (hops : ∀ op ∈ ops, op.ok c)
    (rs : List Res) (s : St (Link ρ)) (h : Reach c resp ops rs s) (e : Rx) (he : e ∈ s.tr.log) (hne : e.out ≠ .ok) (o : Nat)
    (ht : e.buf.touches o) : s.tr.heap.valid o = false := by
  cases hv : s.tr.heap.valid o with
  | false => rfl
  | true =>
    exfalso
    obtain ⟨e', he', ho', ha'⟩ := (C15_valid_iff hw hcap hr ops hops rs s h o).1 hv
    obtain ⟨fs, ls, log0, G, hI, _⟩ := h.inv hw hcap hr hops
    obtain ⟨ls', hd, hsep, hsub, hcov⟩ := hI.desc
    obtain ⟨f', hz', hf'⟩ := mem_zip_of_mem hd.bufs he'
    obtain ⟨f, hz, hf⟩ := mem_zip_of_mem hd.bufs he
    rw [hf', fin_adds] at ha'
    rw [hf] at ht
    obtain ⟨it, hit, hio⟩ := fin_touches.1 ht
    obtain ⟨it', hit', hl', hoo'⟩ := ha'
    obtain ⟨i, hi, hei⟩ := List.getElem_of_mem hz
    obtain ⟨j, hj, hej⟩ := List.getElem_of_mem hz'
    rcases Nat.lt_trichotomy i j with hij | hij | hij
    · have := (List.pairwise_iff_getElem.1 hsep) i j hi hj hij
      rw [hei, hej] at this
      have := this hne it hit it' hit'
      omega
    · subst hij
      rw [hei] at hej
      cases hej
      exact hne ho'
    · have hla := hd.last
      rw [List.flatMap_def, List.pairwise_flatten] at hla
      have := (List.pairwise_iff_getElem.1 (List.pairwise_map.1 hla.2)) j i (by simp only [List.length_zip] at hj; omega)
        (by simp only [List.length_zip] at hi; omega) hij
      have e1 : ls'[j]'(by simp only [List.length_zip] at hj; omega) = f' := by
        rw [List.getElem_zip] at hej; exact (Prod.mk.inj hej).2
      have e2 : ls'[i]'(by simp only [List.length_zip] at hi; omega) = f := by
        rw [List.getElem_zip] at hei; exact (Prod.mk.inj hei).2
      rw [e1, e2] at this
      exact this it' hit' it hit hl' (by rw [hoo', hio])

/-- C15. Every failed validation is reported: the failures, in order, are among the exceptions the calls threw,
in order. -/
theorem C15_throws (hw : WF c) (hcap : CapOK c) (hr : c.ver = .v2 → Roomy c) (ops : List Op) (hops : ∀ op ∈ ops, op.ok c)
    (rs : List Res) (s : St (Link ρ)) (h : Reach c resp ops rs s) : (errsOf s.tr.log).Sublist (excsOf rs) := by
  obtain ⟨_, _, _, _, _, h⟩ := h.inv hw hcap hr hops
  exact h

/-- Replies that arrive after an object has become valid are not received into it. -/
theorem later_untouched (hw : WF c) (hcap : CapOK c) (hr : c.ver = .v2 → Roomy c) (ops ops' : List Op) (hops : ∀ op ∈ ops, op.ok c)
    (hops' : ∀ op ∈ ops', op.ok c) (rs rs' : List Res) (s s' : St (Link ρ)) (h : Reach c resp ops rs s)
    (h' : runOps c (linkT c resp) ops' s = some (rs', s')) (o : Nat) (hv : s.tr.heap.valid o = true) :
    ∃ more, s'.tr.log = s.tr.log ++ more ∧ s'.tr.heap = replay c s.tr.heap more ∧
      ∀ e ∈ more, ∀ l, l.obj? = some o → l ∉ bufLocs e.buf := by
  obtain ⟨e', he', ho', ha'⟩ := (C15_valid_iff hw hcap hr ops hops rs s h o).1 hv
  obtain ⟨fs, ls, log0, G, hI, _⟩ := h.inv hw hcap hr hops
  obtain ⟨rs1, s1, fs1, ls1, l1, G1, L, h1, hI', _⟩ := lrun (resp := resp) hw hcap hr s.tr.log ops' hops' hI.mark
  rw [h'] at h1; cases h1
  obtain ⟨⟨p1, p2, more, p3⟩, _⟩ := hI'.ri.rep.inv
  obtain ⟨⟨r1, _, _⟩, _⟩ := hI.ri.rep.inv
  obtain ⟨ls', hd, hsep, hsub, hcov⟩ := hI'.desc
  simp only at p3
  refine ⟨more, p3.symm, by rw [p1, ← p3, replay_append, ← r1], ?_⟩
  intro e he l hl hm
  -- positions of the two entries
  obtain ⟨a1, a2, ha⟩ := List.append_of_mem he'
  obtain ⟨b1, b2, hb⟩ := List.append_of_mem he
  have hlog : s'.tr.log = (a1 ++ e' :: a2) ++ (b1 ++ e :: b2) := by rw [← p3, ha, hb]
  have hbufs := hd.bufs
  rw [hlog, List.map_append, List.map_append, List.map_append, List.map_cons, List.map_cons] at hbufs
  obtain ⟨m1, m2, q1, q2, q3⟩ := List.append_eq_map_iff.1 hbufs
  have g1 : ∃ f' ∈ m1, f'.buf c = e'.buf := by
    have : e'.buf ∈ m1.map (Fin'.buf c) := by rw [q2]; simp
    exact List.mem_map.1 this
  have g2 : ∃ f ∈ m2, f.buf c = e.buf := by
    have : e.buf ∈ m2.map (Fin'.buf c) := by rw [q3]; simp
    exact List.mem_map.1 this
  obtain ⟨f', hf', hfe'⟩ := g1
  obtain ⟨f, hf, hfe⟩ := g2
  rw [← hfe', fin_adds] at ha'
  obtain ⟨it', hit', hl', hoo'⟩ := ha'
  rw [← hfe, fin_locs, List.mem_append] at hm
  rcases hm with hm | hm
  · have := preLocs_obj hm
    cases l <;> simp [Loc.obj?, Loc.isObj] at hl this
  · obtain ⟨it, hit, hm⟩ := List.mem_flatMap.1 hm
    have hio := itemLocs_obj? hm
    rw [hl] at hio
    have hla := hd.last
    rw [q1, List.flatMap_append, List.pairwise_append] at hla
    have := hla.2.2 it' (List.mem_flatMap.2 ⟨f', hf', hit'⟩) it (List.mem_flatMap.2 ⟨f, hf, hit⟩) hl'
    rw [hoo'] at this
    exact this (Option.some.inj hio)

/-- C15. Whatever happens later, valid objects stay valid and keep their words. -/
theorem C15_stays (hw : WF c) (hcap : CapOK c) (hr : c.ver = .v2 → Roomy c) (ops ops' : List Op) (hops : ∀ op ∈ ops, op.ok c)
    (hops' : ∀ op ∈ ops', op.ok c) (rs rs' : List Res) (s s' : St (Link ρ)) (h : Reach c resp ops rs s)
    (h' : runOps c (linkT c resp) ops' s = some (rs', s')) (o : Nat) (hv : s.tr.heap.valid o = true) :
    s'.tr.heap.valid o = true ∧ ∀ l, l.obj? = some o → s'.tr.heap.word l = s.tr.heap.word l := by
  obtain ⟨more, m1, m2, m3⟩ := later_untouched hw hcap hr ops ops' hops hops' rs rs' s s' h h' o hv
  constructor
  · obtain ⟨e', he', ho', ha'⟩ := (C15_valid_iff hw hcap hr ops hops rs s h o).1 hv
    have hR : Reach c resp (ops ++ ops') (rs ++ rs') s' := by
      obtain ⟨e, sched, h⟩ := h
      exact ⟨e, sched, by rw [runOps_append, h]; simp [h']⟩
    refine (C15_valid_iff hw hcap hr (ops ++ ops') ?_ _ s' hR o).2 ⟨e', by rw [m1]; simp [he'], ho', ha'⟩
    intro op ho
    rcases List.mem_append.1 ho with ho | ho
    · exact hops op ho
    · exact hops' op ho
  · intro l hl
    rw [m2]
    exact replay_notin c _ _ l fun e he => m3 e he l hl


/-! ### Successful stretches of a program -/

/-- What one successful call queued. -/
structure OpRec where
  op : Op
  hd : Option Handle
  obj : Nat
  its : List Item

/-- The record is right. -/
structure OpRec.OK (v : Ver) (r : OpRec) : Prop where
  real : Realises v r.op (r.its.map Item.txn)
  hok : HandleOK r.op r.obj r.hd
  tiles : r.op ≠ .dispatch → Tiles r.obj 0 0 r.its
  disp : r.op = .dispatch → r.its = []

/-- Calls that all returned. -/
theorem lrun_ok (hw : WF c) (hcap : CapOK c) (hr : c.ver = .v2 → Roomy c) (pre : List Rx) (ops : List Op)
    (hops : ∀ op ∈ ops, op.ok c) {s s' : St (Link ρ)} {rs : List Res} {fs ls : List Fin'} {log0 : List Rx} {G : Gh}
    (h : LInv c pre s fs ls log0 G) (hrun : runOps c (linkT c resp) ops s = some (rs, s'))
    (hrs : ∀ r ∈ rs, ∃ hh, r = .ok hh) : ∃ (G' : Gh) (recs : List OpRec), LInv c pre s' fs ls log0 G' ∧
      user G'.items = user G.items ++ recs.flatMap OpRec.its ∧ recs.map OpRec.op = ops ∧
      rs = recs.map (fun r => .ok r.hd) ∧ (∀ r ∈ recs, r.OK c.ver) ∧
      (ops.getLast? = some .dispatch → G'.cur = none) := by
  induction ops generalizing s rs G with
  | nil =>
    rw [runOps] at hrun; cases hrun
    exact ⟨G, [], h, by simp, rfl, rfl, by simp, by simp⟩
  | cons op ops ih =>
    have hs := lstep (resp := resp) hw hcap hr h op (hops op (by simp))
    rw [runOps] at hrun
    generalize op.run c (linkT c resp) s = r at hs hrun
    cases hs with
    | ok hh s1 G1 its obj inv ext mono real hok tiles disp =>
      simp only [Option.map_eq_some_iff] at hrun
      obtain ⟨⟨rs1, s2⟩, hrun1, hrun2⟩ := hrun
      cases hrun2
      obtain ⟨G', recs, r1, r2, r3, r4, r5, r6⟩ := ih (fun o ho => hops o (by simp [ho])) inv hrun1 (fun r hr => hrs r (by simp [hr]))
      refine ⟨G', ⟨op, hh, obj, its⟩ :: recs, r1, ?_, by simp [r3], by simp [r4], ?_, ?_⟩
      · rw [r2, ext.user]; simp
      · intro r hr
        simp only [List.mem_cons] at hr
        rcases hr with rfl | hr
        · exact ⟨real, hok, fun h => (tiles h).1, fun h => (disp h).1⟩
        · exact r5 r hr
      · intro hl
        cases ops with
        | nil =>
          simp only [List.getLast?_singleton, Option.some.injEq] at hl
          rw [runOps] at hrun1; cases hrun1
          cases recs with
          | cons _ _ => simp at r3
          | nil =>
            obtain ⟨hd1, hd2⟩ := disp hl
            have hfl := inv.ri.rep.fl hd2
            by_cases hc : G'.cur = none
            · exact hc
            · have e1 := inv.ri.rep.cur
              have e2 := r1.ri.rep.cur
              rw [hd2] at e1
              rw [e1] at e2
              cases hg : G'.cur with
              | none => exact absurd hg hc
              | some g => rw [hg] at e2; cases e2
        | cons o ops =>
          rw [List.getLast?_cons_cons] at hl
          exact r6 hl
    | arg e s1 G1 inv hitems hop =>
      simp only [Option.map_eq_some_iff] at hrun
      obtain ⟨⟨rs1, s2⟩, hrun1, hrun2⟩ := hrun
      cases hrun2
      obtain ⟨hh, hx⟩ := hrs (.exc e) (by simp)
      cases hx
    | failed e s1 fs1 ls1 log1 inv he hlog =>
      simp only [Option.map_eq_some_iff] at hrun
      obtain ⟨⟨rs1, s2⟩, hrun1, hrun2⟩ := hrun
      cases hrun2
      obtain ⟨hh, hx⟩ := hrs (.exc e) (by simp)
      cases hx

theorem Tiles.last {obj k off : Nat} {its : List Item} (h : Tiles obj k off its) :
    ∃ it ∈ its, it.obj = obj ∧ it.last = true := by
  induction its generalizing k off with
  | nil => exact h.elim
  | cons a l ih =>
    cases l with
    | nil => exact ⟨a, by simp, h.1, h.2.2.2⟩
    | cons b l =>
      obtain ⟨_, _, _, _, ht⟩ := h
      obtain ⟨it, hm, h1⟩ := ih ht
      exact ⟨it, by simp [hm], h1⟩

theorem HandleOK.obj {op : Op} {o : Nat} {h : Handle} (hk : HandleOK op o (some h)) : h.obj = o ∧ op ≠ .dispatch := by
  cases op <;> simp only [HandleOK, Option.some.injEq, reduceCtorEq] at hk <;> subst hk <;> exact ⟨rfl, by simp⟩

/-- C15. A dispatch that returns has validated everything queued since the last exception: after any program
(with any failures), a stretch of calls that all return, ending with `dispatch`, leaves every returned object valid. -/
theorem C15_success (hw : WF c) (hcap : CapOK c) (hr : c.ver = .v2 → Roomy c) (ops ops' : List Op) (hops : ∀ op ∈ ops, op.ok c)
    (hops' : ∀ op ∈ ops', op.ok c) (rs rs' : List Res) (s s' : St (Link ρ)) (h : Reach c resp ops rs s)
    (h' : runOps c (linkT c resp) (ops' ++ [.dispatch]) s = some (rs', s')) (hrs : ∀ r ∈ rs', ∃ hh, r = .ok hh)
    (hh : Handle) (hm : .ok (some hh) ∈ rs') : s'.tr.heap.valid hh.obj = true := by
  obtain ⟨fs, ls, log0, G, hI, _⟩ := h.inv hw hcap hr hops
  obtain ⟨G', recs, hI', h2, h3, h4, h5, h6⟩ := lrun_ok (resp := resp) hw hcap hr [] (ops' ++ [.dispatch])
    (by intro o ho; rw [List.mem_append] at ho; rcases ho with ho | ho
        · exact hops' o ho
        · simp at ho; subst ho; trivial) hI h' hrs
  have hcur := h6 (by simp)
  have hpend : s'.tr.pending = [] := hI'.ri.rep.fl hcur
  obtain ⟨logE, d1, d2, q1, q2, q3, q4, q5, q6⟩ := hI'.log
  rw [hpend] at q4
  have hd2 : d2 = [] := List.map_eq_nil_iff.1 q4.symm
  rw [hd2, List.append_nil] at q2
  rw [h4, List.mem_map] at hm
  obtain ⟨r, hr1, hr2⟩ := hm
  have hrd : r.hd = some hh := by injection hr2
  have hrok := h5 r hr1
  have hk := hrok.hok
  rw [hrd] at hk
  obtain ⟨hobj, hnd⟩ := hk.obj
  obtain ⟨it, hit, hio, hil⟩ := (hrok.tiles hnd).last
  have hmem : it ∈ G'.items := by
    have : it ∈ user G'.items := by
      rw [h2, List.mem_append]; right
      rw [List.mem_flatMap]; exact ⟨r, hr1, hit⟩
    exact (List.mem_filter.1 this).1
  rw [Gh.items, hcur] at hmem
  simp only [Option.map_none, Option.getD_none, List.append_nil, List.mem_flatMap] at hmem
  obtain ⟨f, hf, hfi⟩ := hmem
  rw [q2] at hf
  obtain ⟨⟨p1, p2, p3⟩, _⟩ := hI'.ri.rep.inv
  rw [p1, replay_valid p2]
  right
  have : f.buf c ∈ logE.map Rx.buf := by rw [q3]; exact List.mem_map_of_mem hf
  obtain ⟨e, he, heb⟩ := List.mem_map.1 this
  refine ⟨e, by rw [q1, List.mem_append]; exact .inr he, q5 e he, ?_⟩
  rw [heb, fin_adds]
  exact ⟨it, by rw [Fin'.all, List.mem_append]; exact .inl hfi, hil, by rw [hio, hobj]⟩

/-! ### C12 -/

theorem headerOK_zero (v : Ver) (id : Nat) (ty : Ty) : ¬ HeaderOK v id ty 0#32 := by
  rintro ⟨h, _⟩
  cases v <;> revert h <;> decide

theorem bufLocs_split (b : Buf) (a r : List Slot) (h : Slot) (hb : b.reply = a ++ h :: r) (hl : h.len = 1) :
    (bufLocs b)[(a.map Slot.len).sum]? = some (h.loc.plus 0) := by
  unfold bufLocs
  rw [hb, List.flatMap_append, List.flatMap_cons]
  have : (a.flatMap slotLocs).length = (a.map Slot.len).sum := by
    rw [List.length_flatMap]
    congr 1
    apply List.map_congr_left
    intro x _; simp [slotLocs]
  rw [List.getElem?_append_right (by omega), this, Nat.sub_self]
  simp [slotLocs, hl]

/-- C12 (partial). If an object is valid then for every packet with a part of it there is a reply that passed
validation, received in response to that very packet, and every word of the object in that packet is the word
the reply has at this place. The reply reaches at least to the header of the last transaction of the packet, so
that only the data of the last transaction may be missing from it; missing words read as zero. What is missing
for the full property: that these last words have been delivered, which is not so (`C12_short_reply_accepted`). -/
theorem C12_delivered_partial (hw : WF c) (hcap : CapOK c) (hr : c.ver = .v2 → Roomy c) (ops : List Op) (hops : ∀ op ∈ ops, op.ok c)
    (rs : List Res) (s : St (Link ρ)) (h : Reach c resp ops rs s) (o : Nat) (hv : s.tr.heap.valid o = true) (b : Buf)
    (hb : b ∈ s.hist) (ht : b.touches o) : ∃ e ∈ s.tr.log, e.buf = b ∧ e.out = .ok ∧
      (∀ a hs r, b.reply = a ++ hs :: r → hs.loc.isHdr = true → (a.map Slot.len).sum < e.reply.length) ∧
      ∀ (p : Nat) (l : Loc), (bufLocs b)[p]? = some l → l.obj? ≠ none → s.tr.heap.word l = e.reply[p]?.getD 0 := by
  obtain ⟨e, he, heb, heo⟩ := C15_complete hw hcap hr ops hops rs s h o hv b hb ht
  obtain ⟨fs, ls, log0, G, hI, _⟩ := h.inv hw hcap hr hops
  obtain ⟨ls', hd, hsep, hsub, hcov⟩ := hI.desc
  obtain ⟨⟨p1, p2, p3⟩, _⟩ := hI.ri.rep.inv
  obtain ⟨pre, post, hsp⟩ := List.append_of_mem he
  rw [hsp] at hd
  obtain ⟨l1, f, l2, hls, k1, k2, k3⟩ := hd.split
  have hf : FinOK c f := hd.fin f (by rw [hls]; simp)
  have hobj : ∀ l : Loc, l.obj? ≠ none → l.isObj := by
    intro l hl; cases l <;> simp [Loc.obj?, Loc.isObj] at hl ⊢
  refine ⟨e, he, heb, heo, ?_, ?_⟩
  · intro a hs r hsplit hhdr
    have hout := hd.out
    rw [heo, k2, validateBuf_fin hw hf hcap hr] at hout
    have hfv : finVerdict c (scatter (replay c .fresh pre) (f.buf c).reply e.reply).word f = none := by
      cases hx : finVerdict c (scatter (replay c .fresh pre) (f.buf c).reply e.reply).word f with
      | none => rfl
      | some y => rw [hx] at hout; cases hout
    unfold finVerdict at hfv
    rw [Option.or_eq_none_iff, Option.or_eq_none_iff, findSome_none_iff] at hfv
    have hmem : hs ∈ (f.buf c).reply := by rw [← k2, heb, hsplit]; simp
    have hre : (f.buf c).reply = preSlots c f.g.k ++ f.all.flatMap slots := by
      unfold Fin'.buf; rw [patch_reply]; rfl
    rw [hre, List.mem_append, List.mem_flatMap] at hmem
    have hit : ∃ it ∈ f.all, hs = ⟨.hdr it.obj it.hk, 1⟩ := by
      rcases hmem with hmem | ⟨it, hit, hmem⟩
      · exfalso
        unfold preSlots at hmem
        cases hh : c.hub <;> cases hv : c.ver <;> simp [hh, hv] at hmem
        all_goals
          first
          | (rcases hmem with rfl | rfl | rfl | rfl <;> cases hhdr)
          | (rcases hmem with rfl | rfl | rfl <;> cases hhdr)
          | (subst hmem; cases hhdr)
      · refine ⟨it, hit, ?_⟩
        unfold slots at hmem
        cases hd : txData it.txn <;> rw [hd] at hmem <;> simp at hmem
        · exact hmem
        · rcases hmem with rfl | rfl
          · rfl
          · cases hhdr
    obtain ⟨it, hit, rfl⟩ := hit
    have hpos := bufLocs_split b a r _ hsplit rfl
    have hword := (hd.word (p := (a.map Slot.len).sum) (l := .hdr it.obj it.hk) (by rw [heb]; exact hpos) trivial).2
    have hver := hfv.2.2 it hit
    unfold itemVerdict at hver
    rw [verdict_none_iff] at hver
    rw [k2] at hword
    rw [hword] at hver
    rcases Nat.lt_or_ge (a.map Slot.len).sum e.reply.length with hlt | hge
    · exact hlt
    · rw [List.getElem?_eq_none hge] at hver
      exact (headerOK_zero _ _ _ hver).elim
  · intro p l hp hl
    rw [p1, hsp]
    exact (hd.word (by rw [heb]; exact hp) (hobj l hl)).1

/-- C12. If every reply that arrives is complete (as many words as there are in the slots of its packet) then
every word of a valid object is a word delivered in the reply to its packet. -/
theorem C12_full (hw : WF c) (hcap : CapOK c) (hr : c.ver = .v2 → Roomy c) (ops : List Op) (hops : ∀ op ∈ ops, op.ok c)
    (rs : List Res) (s : St (Link ρ)) (h : Reach c resp ops rs s)
    (hfull : ∀ e ∈ s.tr.log, (bufLocs e.buf).length ≤ e.reply.length) (o : Nat) (hv : s.tr.heap.valid o = true) (b : Buf)
    (hb : b ∈ s.hist) (ht : b.touches o) : ∃ e ∈ s.tr.log, e.buf = b ∧ e.out = .ok ∧
      ∀ (p : Nat) (l : Loc), (bufLocs b)[p]? = some l → l.obj? ≠ none → e.reply[p]? = some (s.tr.heap.word l) := by
  obtain ⟨e, he, heb, heo, _, h2⟩ := C12_delivered_partial hw hcap hr ops hops rs s h o hv b hb ht
  refine ⟨e, he, heb, heo, ?_⟩
  intro p l hp hl
  have hlt : p < e.reply.length := by
    have := hfull e he
    have := (List.getElem?_eq_some_iff.1 hp).1
    rw [heb] at *
    omega
  rw [h2 p l hp hl, List.getElem?_eq_getElem hlt]
  rfl

/-- A device that answers the `n`-th packet with the `n`-th entry of a list. -/
def listResp (l : List (Option (List W))) (_ : List W) : Option (List W) × List (Option (List W)) :=
  (l.headD none, l.tail)

/-- Results, valid flags and words of a program with given replies. -/
def demoOut (c : Cfg) (replies : List (Option (List W))) (sched : List (Nat × Nat)) (ops : List Op) (objs : List Nat)
    (locs : List Loc) : Option (List Res × List Bool × List W) :=
  (runOps c (linkT c listResp) ops (St.init (Link.init replies sched))).map fun p =>
    (p.1, objs.map p.2.tr.heap.valid, locs.map p.2.tr.heap.word)

/-- C12 is violated: a reply that ends with the header of the last transaction is accepted, `dispatch` returns,
and the value is readable (as zero) although it was never delivered. -/
theorem C12_short_reply_accepted :
    demoOut (demoCfg .v2) [some [0x200000F0, 0x20000100]] [] [.read 0x10, .dispatch] [0] [.data 0 0] =
      some ([.ok (some (.word 0 noMask)), .ok none], [true], [0]) := by decide +kernel

/-- Non-vacuity of C12 and C15: a complete reply; an error code in the second header (nothing valid, the dispatch
throws, a later dispatch works); a reply that never comes. -/
example : demoOut (demoCfg .v2) [some [0x200000F0, 0x20000100, 0xCAFE]] [] [.read 0x10, .dispatch] [0] [.data 0 0] =
    some ([.ok (some (.word 0 noMask)), .ok none], [true], [0xCAFE]) := by decide +kernel

example : demoOut (demoCfg .v2) [some [0x200000F0, 0x20000100, 0xCAFE, 0x20010104, 0xBEEF], some [0x200000F0, 0x20000100, 0xF00D]] []
    [.read 0x10, .read 0x11, .dispatch, .read 0x10, .dispatch] [0, 1, 2] [.data 0 0, .data 1 0, .data 2 0] =
    some ([.ok (some (.word 0 noMask)), .ok (some (.word 1 noMask)), .exc (.responseCode 4), .ok (some (.word 2 noMask)), .ok none],
      [false, false, true], [0xCAFE, 0xBEEF, 0xF00D]) := by decide +kernel

example : demoOut (demoCfg .v2) [none] [] [.read 0x10, .dispatch] [0] [.data 0 0] =
    some ([.ok (some (.word 0 noMask)), .exc (.transport 0)], [false], [0]) := by decide +kernel

end Verif
