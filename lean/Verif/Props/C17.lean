import Verif.Lemmas.Sim
import Verif.Lemmas.PreIdx
import Verif.Props.C15
/-!
# C17 clean slate after a failure

After a call that failed in the transport or in the validation of a reply, the client behaves like one that has
just been constructed (and connected to the same target in its present state): same results, same packets,
same memory contents, for every continuation. The comparison renames objects and packets (`shift`), which are
numbered through the whole life of a client.
-/

set_option autoImplicit false
set_option linter.unusedSimpArgs false

namespace Verif
open Spec
variable {ρ : Type} {c : Cfg} {resp : ρ → List W → Option (List W) × ρ}

/-- Corresponding memories. -/
structure HeapShift (d e : Nat) (h h' : Heap) : Prop where
  word : ∀ l, h'.word (l.shift d e) = h.word l
  valid : ∀ o, h'.valid (o + d) = h.valid o

/-- Corresponding records. -/
def Rx.shift (d e : Nat) (x : Rx) : Rx := ⟨x.buf.shift d e, x.reply, x.out⟩

/-- Corresponding transports; `g`, `g'` are the logs at the start. -/
structure LinkShift (d e : Nat) (g g' : List Rx) (t t' : Link ρ) : Prop where
  heap : HeapShift d e t.heap t'.heap
  pending : t'.pending = t.pending.map (Buf.shift d e)
  env : t'.env = t.env
  sched : t'.sched = t.sched
  log : ∃ K, t.log = g ++ K ∧ t'.log = g' ++ K.map (Rx.shift d e)

theorem plus_shift (d e : Nat) (l : Loc) (i : Nat) : (l.shift d e).plus i = (l.plus i).shift d e := by cases l <;> rfl

theorem HeapShift.set {d e : Nat} {h h' : Heap} (hs : HeapShift d e h h') (l : Loc) (w : W) :
    HeapShift d e (h.set l w) (h'.set (l.shift d e) w) := by
  refine ⟨fun a => ?_, hs.valid⟩
  simp only [Heap.set]
  by_cases ha : a = l
  · subst ha; simp
  · have : ¬ a.shift d e = l.shift d e := fun h => ha (Loc.shift_inj h)
    simp only [ha, this, if_false]; exact hs.word a

theorem HeapShift.copy {d e : Nat} {h h' : Heap} (hs : HeapShift d e h h') (l : Loc) (i : Nat) (ws : List W) :
    HeapShift d e (h.copy l i ws) (h'.copy (l.shift d e) i ws) := by
  induction ws generalizing h h' i with
  | nil => exact hs
  | cons w ws ih => rw [Heap.copy, Heap.copy, plus_shift]; exact ih (hs.set _ _) _

theorem HeapShift.scatter {d e : Nat} {h h' : Heap} (hs : HeapShift d e h h') (sls : List Slot) (ws : List W) :
    HeapShift d e (scatter h sls ws) (scatter h' (sls.map (Slot.shift d e)) ws) := by
  induction sls generalizing h h' ws with
  | nil => exact hs
  | cons s ss ih =>
    rw [List.map_cons, Verif.scatter, Verif.scatter]
    split
    · exact hs
    · exact ih (hs.copy _ _ _) _

theorem coreValidate_shift {d e : Nat} {rd rd' : Loc → W} (h : ∀ l, rd' (l.shift d e) = rd l) (v : Ver) (fuel cap : Nat)
    (send : List W) (sls : List Slot) :
    coreValidate v rd' fuel cap send (sls.map (Slot.shift d e)) = coreValidate v rd fuel cap send sls := by
  induction fuel generalizing cap send sls with
  | zero => rfl
  | succ fuel ih =>
    cases send with
    | nil => rfl
    | cons w t =>
      rw [coreValidate, coreValidate]
      cases extractHeader v w with
      | none => rfl
      | some hs =>
        cases sls with
        | nil => rfl
        | cons sl rest =>
          simp only [List.map_cons, Slot.shift, h]
          split
          · rfl
          · cases extractHeader v (rd sl.loc) with
            | none => rfl
            | some hr =>
              simp only
              split
              · rfl
              · split
                · rfl
                · have hra : replyAdvance hr.ty (rest.map (Slot.shift d e)) = (replyAdvance hr.ty rest).map (List.map (Slot.shift d e)) := by
                    unfold replyAdvance
                    split
                    · cases rest <;> rfl
                    · rfl
                  rw [hra]
                  cases replyAdvance hr.ty rest with
                  | none => rfl
                  | some sl' =>
                    simp only [Option.map_some, List.map_eq_nil_iff, ih]

theorem ipbusValidate_shift {d e : Nat} {rd rd' : Loc → W} (h : ∀ l, rd' (l.shift d e) = rd l) (v : Ver) (cap : Nat)
    (send : List W) (sls : List Slot) :
    ipbusValidate v rd' cap send (sls.map (Slot.shift d e)) = ipbusValidate v rd cap send sls := by
  unfold ipbusValidate
  cases v with
  | v1 => exact coreValidate_shift h _ _ _ _ _
  | v2 =>
    cases send with
    | nil => cases sls <;> rfl
    | cons w t =>
      cases sls with
      | nil => rfl
      | cons sl rest =>
        simp only [List.map_cons, coreValidate_shift h]
        simp only [Slot.shift, h]

theorem validateBuf_shift {d e : Nat} {rd rd' : Loc → W} (h : ∀ l, rd' (l.shift d e) = rd l) (b : Buf) :
    validateBuf c rd' (b.shift d e) = validateBuf c rd b := by
  unfold validateBuf Buf.shift
  cases c.hub with
  | none => exact ipbusValidate_shift h _ _ _ _
  | some p =>
    simp only
    unfold hubValidate
    cases b.reply with
    | nil => rfl
    | cons s0 r =>
      cases r with
      | nil => rfl
      | cons a r =>
        cases r with
        | nil => rfl
        | cons p r =>
          simp only [List.map_cons, ipbusValidate_shift h]
          simp only [Slot.shift, h]

theorem receive_shift {d e : Nat} {h h' : Heap} (hs : HeapShift d e h h') (b : Buf) (ws : List W) :
    (receiveReply c h' (b.shift d e) ws).1 = (receiveReply c h b ws).1 ∧
      HeapShift d e (receiveReply c h b ws).2 (receiveReply c h' (b.shift d e) ws).2 := by
  have h1 := hs.scatter b.reply ws
  have h2 : (receiveReply c h' (b.shift d e) ws).1 = (receiveReply c h b ws).1 := by
    rw [receive_out, receive_out]
    exact validateBuf_shift h1.word b
  refine ⟨h2, ⟨?_, ?_⟩⟩
  · rw [receive_word, receive_word]; exact h1.word
  · intro o
    have : (receiveReply c h' (b.shift d e) ws).2.valid (o + d) = true ↔ (receiveReply c h b ws).2.valid o = true := by
      rw [receive_valid, receive_valid, hs.valid, h2]
      simp [Buf.shift]
    exact Bool.eq_iff_iff.2 this

theorem process_shift {d e : Nat} {g g' : List Rx} (n : Nat) {t t' : Link ρ} (h : LinkShift d e g g' t t') :
    TRel (LinkShift d e g g') (LinkShift d e g g') (process c resp n t) (process c resp n t') := by
  induction n generalizing t t' with
  | zero => exact ⟨_, rfl, h⟩
  | succ n ih =>
    rw [process, process]
    rw [h.pending]
    cases hp : t.pending with
    | nil => exact ⟨_, rfl, h⟩
    | cons b bs =>
      simp only [List.map_cons, h.env]
      have hsend : (b.shift d e).send = b.send := rfl
      rw [hsend]
      obtain ⟨K, k1, k2⟩ := h.log
      cases hre : resp t.env b.send with
      | mk r env' =>
        cases r with
        | none => exact ⟨_, rfl, ⟨h.heap, rfl, rfl, h.sched, K, k1, k2⟩⟩
        | some ws =>
          simp only
          obtain ⟨q1, q2⟩ := receive_shift (c := c) h.heap b ws
          generalize hr : receiveReply c t.heap b ws = p at q1 q2
          generalize hr' : receiveReply c t'.heap (b.shift d e) ws = p' at q1 q2
          obtain ⟨o, hh⟩ := p
          obtain ⟨o', hh'⟩ := p'
          simp only at q1 q2
          subst q1
          cases o' with
          | ok => exact ih ⟨q2, rfl, rfl, h.sched, K ++ [⟨b, ws, .ok⟩], by simp [k1], by simp [k2, Rx.shift]⟩
          | err x => exact ⟨_, rfl, ⟨q2, rfl, rfl, h.sched, K ++ [⟨b, ws, .err x⟩], by simp [k1], by simp [k2, Rx.shift]⟩⟩
          | ub => trivial

theorem linkT_shift (d e : Nat) (g g' : List Rx) :
    TSim (linkT c resp) (linkT c resp) d e (fun _ => True) (fun _ => True) (LinkShift d e g g') (LinkShift d e g g') := by
  refine ⟨?_, ?_, ?_, fun _ _ _ _ _ => trivial, fun _ _ _ _ => trivial, fun _ _ => trivial⟩
  · intro t t' b _ _ h
    unfold linkT
    simp only [h.sched]
    have h0 : LinkShift d e g g' { t with sched := t.sched.tail } { t' with sched := t.sched.tail } :=
      ⟨h.heap, h.pending, h.env, rfl, h.log⟩
    have h1 := process_shift (c := c) (resp := resp) (t.sched.headD (0, 0)).1 h0
    cases hp : process c resp (t.sched.headD (0, 0)).1 { t with sched := t.sched.tail } with
    | ok a t1 =>
      rw [hp] at h1
      obtain ⟨t1', e1, h2⟩ := h1
      rw [e1]
      refine process_shift _ ⟨h2.heap, by simp [h2.pending], h2.env, by simp [h2.sched], h2.log⟩
    | exc x t1 =>
      rw [hp] at h1
      obtain ⟨t1', e1, h2⟩ := h1
      rw [e1]
      exact ⟨t1', rfl, h2⟩
    | ub => trivial
    | loops => trivial
  · intro t t' _ h
    have : (linkT c resp).flush t' = process c resp t.pending.length t' := by
      show process c resp t'.pending.length t' = _
      rw [h.pending, List.length_map]
    rw [this]
    exact process_shift _ h
  · intro t t' _ h
    exact ⟨h.heap, rfl, h.env, h.sched, h.log⟩

/-- Memory that belongs to no object or packet so far is as at the beginning. -/
theorem untouched (hw : WF c) (hcap : CapOK c) (hr : c.ver = .v2 → Roomy c) {ops : List Op} (hops : ∀ op ∈ ops, op.ok c)
    {rs : List Res} {s : St (Link ρ)} (h : Reach c resp ops rs s) : HeapShift s.nObj s.nPre .fresh s.tr.heap := by
  obtain ⟨fs, ls, log0, G, hI, _⟩ := h.inv hw hcap hr hops
  obtain ⟨⟨p1, p2, p3⟩, _⟩ := hI.ri.rep.inv
  obtain ⟨ls', hd, hsep, hsub, hcov⟩ := hI.desc
  have hpre : PreQ (fun _ _ => True) s.nPre s := by
    obtain ⟨e, sched, h⟩ := h
    exact pres_run (tracks_true _) ops (PreQ.init _ trivial) h
  have hobj : ∀ f ∈ fs ++ G.done, ∀ it ∈ f.all, it.obj < s.nObj := by
    intro f hf it hit
    rw [List.mem_append] at hf
    rcases hf with hf | hf
    · exact hI.ri.objs f hf it hit
    · refine hI.ri.rep.objs it ?_
      rw [Gh.all, List.mem_append, List.mem_flatMap]
      exact .inl ⟨f, hf, hit⟩
  have hhist : ∀ f ∈ fs ++ G.done, f.buf c ∈ s.hist := by
    intro f hf
    have := hI.ri.rep.hist
    rw [hI.ri.base, ← List.map_append] at this
    rw [this]
    exact List.mem_map_of_mem hf
  have key : ∀ e ∈ s.tr.log, ∀ l ∈ bufLocs e.buf, (∀ o, l.obj? = some o → o < s.nObj) ∧ l.preLt s.nPre := by
    intro e he l hl
    obtain ⟨f, hz, hf⟩ := mem_zip_of_mem hd.bufs he
    have hfm := hsub.subset (List.of_mem_zip hz).2
    rw [hf] at hl
    constructor
    · intro o ho
      rw [fin_locs, List.mem_append] at hl
      rcases hl with hl | hl
      · have := preLocs_obj hl
        cases l <;> simp [Loc.obj?, Loc.isObj] at ho this
      · obtain ⟨it, hit, hl⟩ := List.mem_flatMap.1 hl
        rw [itemLocs_obj? hl] at ho
        cases ho
        exact hobj f hfm it hit
    · have hb := hpre.hist _ (hhist f hfm)
      unfold bufLocs at hl
      obtain ⟨sl, hsl, hl⟩ := List.mem_flatMap.1 hl
      have := hb sl hsl
      unfold slotLocs at hl
      obtain ⟨i, _, rfl⟩ := List.mem_map.1 hl
      revert this
      cases sl.loc <;> simp [Loc.plus, Loc.preLt]
  constructor
  · intro l
    rw [p1]
    rw [replay_notin]
    · rfl
    · intro e he hm
      obtain ⟨k1, k2⟩ := key e he _ hm
      cases l with
      | hdr o k => have := k1 _ rfl; omega
      | data o k => have := k1 _ rfl; omega
      | pkt k => simp only [Loc.shift, Loc.preLt] at k2; omega
      | hub k j => simp only [Loc.shift, Loc.preLt] at k2; omega
  · intro o
    rw [p1]
    cases hv : (replay c .fresh s.tr.log).valid (o + s.nObj) with
    | false => rfl
    | true =>
      exfalso
      obtain h | ⟨e, he, _, ha⟩ := (replay_valid p2 _).1 hv
      · cases h
      · obtain ⟨f, hz, hf⟩ := mem_zip_of_mem hd.bufs he
        rw [hf, fin_adds] at ha
        obtain ⟨it, hit, _, ho⟩ := ha
        have := hobj f (hsub.subset (List.of_mem_zip hz).2) it hit
        omega

/-- The state a fresh client would have. -/
theorem fresh_rel (hw : WF c) (hcap : CapOK c) (hr : c.ver = .v2 → Roomy c) {ops : List Op} (hops : ∀ op ∈ ops, op.ok c)
    {rs : List Res} {s : St (Link ρ)} (h : Reach c resp ops rs s) (hcur : s.cur = none) (hctr : s.ctr = 0) (hp : s.tr.pending = []) :
    SRel s.nObj s.nPre [] s.hist (LinkShift s.nObj s.nPre [] s.tr.log)
      (St.init (Link.init s.tr.env s.tr.sched)) s := by
  refine ⟨hctr, hcur, by simp [St.init], by simp [St.init], ⟨untouched hw hcap hr hops h, hp, rfl, rfl, [], rfl, by simp⟩, [], rfl, by simp⟩

/-- C17. After any program whose last call failed otherwise than in an argument check, every continuation gives the
same results as on a client constructed now (handles renamed), hands the same packets to the transport, gets the same
replies with the same verdicts, and leaves the same words and validity in the memory of the new objects. -/
theorem C17_fresh (hw : WF c) (hcap : CapOK c) (hr : c.ver = .v2 → Roomy c) (ops ops' : List Op) (op : Op)
    (hops : ∀ o ∈ ops ++ [op], o.ok c) (hops' : ∀ op ∈ ops', op.ok c) (rs : List Res) (x : Exc) (s : St (Link ρ))
    (h : Reach c resp (ops ++ [op]) (rs ++ [.exc x]) s)
    (h1 : ∀ a d m, op ≠ .writeMasked a d m ∨ x ≠ .bitsForbidden) (h2 : ∀ a m, op ≠ .readConfig a m ∨ c.ver = .v2) :
    ∃ rs' sN s', runOps c (linkT c resp) ops' (St.init (Link.init s.tr.env s.tr.sched)) = some (rs', sN) ∧
      runOps c (linkT c resp) ops' s = some (rs'.map (Res.shift s.nObj), s') ∧
      s'.hist = s.hist ++ sN.hist.map (Buf.shift s.nObj s.nPre) ∧
      s'.tr.log = s.tr.log ++ sN.tr.log.map (Rx.shift s.nObj s.nPre) ∧
      s'.tr.env = sN.tr.env ∧
      (∀ o, s'.tr.heap.valid (o + s.nObj) = sN.tr.heap.valid o) ∧
      ∀ o i, s'.tr.heap.word (.data (o + s.nObj) i) = sN.tr.heap.word (.data o i) := by
  have hclean : s.cur = none ∧ s.ctr = 0 ∧ s.tr.pending = [] := by
    obtain ⟨e, sched, hrun⟩ := h
    rw [runOps_append] at hrun
    cases hA : runOps c (linkT c resp) ops (St.init (Link.init e sched)) with
    | none => rw [hA] at hrun; cases hrun
    | some p =>
      obtain ⟨ra, s1⟩ := p
      rw [hA] at hrun
      simp only [Option.bind_some, runOps] at hrun
      obtain ⟨fs, ls, log0, G, hI, _⟩ := Reach.inv (resp := resp) hw hcap hr (fun o ho => hops o (by simp [ho])) ⟨e, sched, hA⟩
      have hs := lstep (resp := resp) hw hcap hr hI op (hops op (by simp))
      generalize op.run c (linkT c resp) s1 = r at hs hrun
      cases hs with
      | ok hh s' G' its obj inv ext mono real hok tiles disp =>
        exfalso
        simp only [Option.map_some, Option.some.injEq, Prod.mk.injEq] at hrun
        have := (List.append_inj' hrun.1 rfl).2
        simp at this
      | arg e' s' G' inv hitems hop =>
        exfalso
        simp only [Option.map_some, Option.some.injEq, Prod.mk.injEq] at hrun
        have := (List.append_inj' hrun.1 rfl).2
        simp only [List.cons.injEq, Res.exc.injEq, and_true] at this
        subst this
        rcases hop with ⟨a, d, m, ho, he, _⟩ | ⟨a, m, ho, hv, _⟩
        · rcases h1 a d m with h | h
          · exact h ho
          · exact h he
        · rcases h2 a m with h | h
          · exact h ho
          · rw [h] at hv; cases hv
      | failed e' s' fs' ls' log1 inv he hlog =>
        simp only [Option.map_some, Option.some.injEq, Prod.mk.injEq] at hrun
        obtain ⟨_, rfl⟩ := hrun
        have hc := inv.ri.rep.cur
        exact ⟨hc, inv.ri.rep.ctr, inv.ri.rep.fl rfl⟩
  have hrel := fresh_rel hw hcap hr hops h hclean.1 hclean.2.1 hclean.2.2
  obtain ⟨rs', sN, _, _, _, _, _, hN, _⟩ := lrun (resp := resp) hw hcap hr [] ops' hops' (LInv.init c s.tr.env s.tr.sched)
  obtain ⟨_, s', hS, hrel'⟩ := sim_run (linkT_shift (c := c) (resp := resp) s.nObj s.nPre [] s.tr.log) ops' hN ⟨fun _ _ => trivial, trivial⟩ hrel
  obtain ⟨H, e1, e2⟩ := hrel'.hist
  obtain ⟨K, k1, k2⟩ := hrel'.tr.log
  rw [List.nil_append] at e1 k1
  refine ⟨rs', sN, s', hN, hS, by rw [e2, e1], by rw [k2, k1], hrel'.tr.env, hrel'.tr.heap.valid, ?_⟩
  intro o i
  exact hrel'.tr.heap.word (.data o i)

/-- The hypotheses of `C17_fresh` are met: two reads, the second of which is refused by the target; the state
afterwards still differs from that of a new client (objects 0 and 1 exist, a packet has been sent). -/
example : (runOps (demoCfg .v2) (linkT (demoCfg .v2) listResp) ([.read 0x10, .read 0x11] ++ [.dispatch])
      (St.init (Link.init [some [0x200000F0, 0x20000100, 0xCAFE, 0x20010104, 0xBEEF], some [0x200000F0, 0x20000100, 0xF00D]] []))).map
      (fun p => (p.1, p.2.nObj, p.2.nPre, p.2.hist.length, p.2.cur.isNone, p.2.tr.env.length)) =
    some ([.ok (some (.word 0 noMask)), .ok (some (.word 1 noMask))] ++ [.exc (.responseCode 4)], 2, 1, 1, true,
      1) := by decide +kernel

example : ∃ (ops : List Op) (op : Op) (rs : List Res) (s : St (Link (List (Option (List W))))),
    (∀ o ∈ ops ++ [op], o.ok (demoCfg .v2)) ∧ Reach (demoCfg .v2) listResp (ops ++ [op]) (rs ++ [.exc (.responseCode 4)]) s ∧
      (∀ a d m, op ≠ .writeMasked a d m ∨ Exc.responseCode 4 ≠ .bitsForbidden) ∧
      (∀ a m, op ≠ .readConfig a m ∨ (demoCfg .v2).ver = .v2) := by
  have h : ((runOps (demoCfg .v2) (linkT (demoCfg .v2) listResp) ([.read 0x10, .read 0x11] ++ [.dispatch])
      (St.init (Link.init [some [0x200000F0, 0x20000100, 0xCAFE, 0x20010104, 0xBEEF]] []))).map fun p => p.1) =
    some ([.ok (some (.word 0 noMask)), .ok (some (.word 1 noMask))] ++ [.exc (.responseCode 4)]) := by decide +kernel
  obtain ⟨p, hp, h2⟩ := Option.map_eq_some_iff.1 h
  refine ⟨[.read 0x10, .read 0x11], .dispatch, [.ok (some (.word 0 noMask)), .ok (some (.word 1 noMask))], p.2, ?_,
    ⟨_, _, by rw [hp, ← h2]⟩, fun _ _ _ => .inl (by simp), fun _ _ => .inr rfl⟩
  intro o ho
  simp at ho
  rcases ho with rfl | rfl | rfl <;> trivial

end Verif
