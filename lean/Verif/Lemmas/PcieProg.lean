import Verif.Lemmas.PcieDummy
import Verif.Lemmas.Decent
import Verif.Props.C15Paged
import Verif.Props.C07
/-!
# Programs over the PCIe test target

`fifoT` simulates `pagedT` with `dummyReply` behind the pages, when the client is alone and no access fails.
-/

set_option autoImplicit false
set_option linter.unusedSimpArgs false

namespace Verif.PcieDummy
open Verif.Dummy
open Verif.Spec

/-! ## Exceptions -/

/-- No page was refused with the exception of the argument check. -/
def Fine (u : PCl) : Prop := ∀ x ∈ u.got, x.2.2.2.2 ≠ .err .bitsForbidden

theorem fetch_fine {ρ : Type} {c : Cfg} {p : PCfg} {d : PDev ρ} {u : PCl} (h : Fine u) : Fine (u.fetch c p d) := by
  cases hq : u.queue with
  | nil => unfold PCl.fetch; rw [hq]; exact h
  | cons x q =>
    obtain ⟨b, k⟩ := x
    obtain ⟨ws, r, pc, cr, he, _, hr, _⟩ := PCl.fetch_cons (c := c) (p := p) (d := d) hq
    rw [he]
    intro x hx
    rcases List.mem_append.1 (show x ∈ u.got ++ [_] from hx) with hx | hx
    · exact h x hx
    · rw [List.mem_singleton.1 hx, hr]
      exact receiveReply_exc

theorem connect_got {ρ : Type} {p : PCfg} {d : PDev ρ} {a : Bool} {n : Nat} {u : PCl} : (u.connect p d a n).got = u.got := by
  unfold PCl.connect
  simp only
  repeat' split
  all_goals rfl

theorem pact_fine {ρ : Type} {c : Cfg} {ps : Nat → PCfg} {resp : ρ → List W → Option (List W) × ρ} {v : PW ρ} {a : PAct} {j : Nat}
    (h : Fine (v.cl j)) : Fine ((v.act c ps resp a).cl j) := by
  have hset : ∀ (v' : PW ρ) (i : Nat) (u : PCl), v'.cl = v.cl → (Fine (v.cl i) → Fine u) → Fine ((v'.set i u).cl j) := by
    intro v' i u hv hu
    by_cases hj : j = i
    · subst hj
      rw [PW.set_self]
      exact hu h
    · rw [PW.set_ne _ _ hj, hv]; exact h
  have hcon : ∀ (u : PCl) (p : PCfg) (d : PDev ρ) (x : Bool) (n : Nat), Fine u → Fine (u.connect p d x n) := by
    intro u p d x n hu
    unfold Fine
    rw [connect_got]; exact hu
  cases a <;> simp only [PW.act]
  case dev => exact h
  case call i b' =>
    split
    · exact hset v i _ rfl id
    · exact h
  case connect i =>
    split
    · split
      · exact h
      · exact hset v i _ rfl (hcon _ _ _ _ _)
    · split
      · exact h
      · exact hset v i _ rfl (hcon _ _ _ _ _)
    · exact h
  case fetch i =>
    split
    · exact hset v i _ rfl fetch_fine
    · exact h
  case start i =>
    split
    · refine hset { v with ctr := v.ctr + 1, active := true, late := v.late || decide (v.dev.done < v.dev.written) } i _ rfl ?_
      intro hu
      split
      · exact hcon _ _ _ _ _ hu
      · exact hu
    · exact h
  case write i =>
    split
    · split
      · exact hset { v with dev := _ } i _ rfl id
      · exact h
    · exact h
  case event i =>
    split
    · exact hset { v with dev := _ } i _ rfl id
    · exact h
  case poll i =>
    split
    · exact hset v i _ rfl id
    · exact h
  case flock i =>
    split
    · exact hset { v with lock := some i } i _ rfl id
    · exact h
  case finish i =>
    split
    · exact hset { v with active := false, raced := _ } i _ rfl id
    · exact h
  case fail i =>
    repeat' split
    all_goals first | exact h | exact hset v i _ rfl id
  case callFlush i =>
    split
    · exact hset v i _ rfl id
    · exact h
  case unlock i =>
    split
    · exact hset (v.release i) i _ rfl id
    · exact h
  case handler i =>
    split
    · exact hset (v.release i) i _ rfl id
    · exact h
  case crash i => exact hset (v.release i) i _ rfl id
  case halfStart i =>
    split
    · exact hset ({ v with ctr := v.ctr + 1 }.release i) i { v.cl i with pc := .dead, queue := [], have_ := false, started := false } rfl id
    · exact h

theorem act_fine {c : Cfg} {ps : Nat → PCfg} {w : FW} {a : PAct} {j : Nat} (h : Fine (w.cl j)) : Fine ((w.act c ps a).cl j) := by
  have hp := pact_fine (c := c) (ps := ps) (resp := fun (e : Unit) (_ : List W) => (none, e)) (v := w.clients) (a := a) (j := j) h
  cases a
  case dev => exact h
  case write i =>
    simp only [FW.act]
    split
    · split
      · show Fine (if j = i then _ else _)
        split
        · rename_i hj; subst hj; exact h
        · exact h
      · exact h
    · exact h
  all_goals exact hp

theorem inners_fine {c : Cfg} {ps : Nat → PCfg} {i : Nat} (as : List PAct) : ∀ {w : FW}, Fine (w.cl i) → Fine ((as.foldl (FW.inner c ps i) w).cl i) := by
  induction as with
  | nil => intro w h; exact h
  | cons a as ih =>
    intro w h
    refine ih ?_
    unfold FW.inner
    split
    · exact h
    · exact act_fine h

theorem result_fine {t : FT} {i : Nat} {u0 : PCl} (h : Fine (t.w.cl i)) {o : Out FT Unit} (ho : FT.result t u0 (t.w.cl i) = o) :
    (∀ a t', o = .ok a t' → Fine (t'.w.cl i)) ∧ ∀ e t', o = .exc e t' → Fine (t'.w.cl i) ∧ e ≠ .bitsForbidden := by
  subst ho
  unfold FT.result
  cases (t.w.cl i).pc <;> simp only <;> refine ⟨?_, ?_⟩
  case idle.refine_1 => intro a t' h'; cases h'; exact h
  case thrown.refine_2 =>
    intro e t' h'
    cases h'
    refine ⟨h, ?_⟩
    unfold PCl.refused
    split
    · rename_i e hl
      have hx := h _ (List.mem_of_mem_drop (List.mem_of_getLast? hl))
      intro he
      exact hx (congrArg VOut.err he)
    · intro h; cases h
  all_goals
    intros
    rename_i h'
    cases h'

theorem fifoT_decent (c : Cfg) (ps : Nat → PCfg) (i : Nat) : (fifoT c ps i).Decent fun t => Fine (t.w.cl i) := by
  refine ⟨?_, ?_, ?_⟩
  · intro t b h
    have := result_fine (t := ⟨(t.plan.headD []).foldl (FW.inner c ps i) (t.w.act c ps (.call i b)), t.plan.tail, _⟩) (inners_fine _ (act_fine h))
      (o := (fifoT c ps i).disp t b) rfl
    split
    · rename_i hx; exact this.1 _ _ hx
    · rename_i hx; exact this.2 _ _ hx
    · trivial
  · intro t h
    have := result_fine (t := ⟨(t.plan.headD []).foldl (FW.inner c ps i) (t.w.act c ps (.callFlush i)), t.plan.tail, _⟩) (inners_fine _ (act_fine h))
      (o := (fifoT c ps i).flush t) rfl
    split
    · rename_i hx; exact this.1 _ _ hx
    · rename_i hx; exact this.2 _ _ hx
    · trivial
  · intro t h
    refine act_fine (w := { t.w with cl := fun j => if j = i then { t.w.cl i with pc := .thrown } else t.w.cl j }) (a := .handler i) ?_
    show Fine (if i = i then _ else _)
    rw [if_pos rfl]; exact h

/-- The packets of a program. -/
theorem run_fin {c : Cfg} {ps : Nat → PCfg} {i : Nat} {pid : BitVec 16} {plan : List (List PAct)} (hw : WF c) (ops : List Op) (hops : ∀ op ∈ ops, op.ok c) (rs : List Res) (s : St FT)
    (hrun : runOps c (fifoT c ps i) ops (St.init (FT.init ps pid plan)) = some (rs, s)) : ∀ b ∈ s.hist, ∃ f, FinOK c f ∧ b = f.buf c := by
  obtain ⟨h1, _⟩ := run_completed (fifoT_decent c ps i) ops (by intro x h; cases h) hrun
  obtain ⟨rs', s', _, _, g1, g2, _⟩ := inv_run hw (Transport.completed_total _) ops hops (Inv.init c _)
  rw [h1] at g1
  cases g1
  exact inv_hist g2

/-! ## The simulation -/

section
variable {cfg : List W} {s : Prop} {c : Cfg} {ps : Nat → PCfg} {e0 : Dev (W → W)} {i : Nat}

theorem All.inner {w : FW} {v : PW (Dev (W → W))} (h : All cfg s c ps e0 w v) (hs : Solo c ps (dummyReply .v2 (tgOf cfg)) 360 i e0 v) {a : PAct} (ha : a.tame i) :
    All cfg s c ps e0 (w.inner c ps i a) ((w.shadow a).foldl (PW.inner c ps (dummyReply .v2 (tgOf cfg)) i) v) ∧
      Solo c ps (dummyReply .v2 (tgOf cfg)) 360 i e0 ((w.shadow a).foldl (PW.inner c ps (dummyReply .v2 (tgOf cfg)) i) v) := by
  have hcl : w.cl i = v.cl i := congrFun h.rel.same.cl i
  have hS : Solo c ps (dummyReply .v2 (tgOf cfg)) 360 i e0 ((w.shadow a).foldl (PW.inner c ps (dummyReply .v2 (tgOf cfg)) i) v) := by
    refine hs.inners _ ?_
    intro x hx
    unfold FW.shadow at hx
    split at hx
    · cases hx
    · rw [List.mem_singleton.1 hx]; exact ha
  refine ⟨?_, hS⟩
  have hok : a.okFor cfg s := by
    cases a <;> try trivial
    rename_i j b
    rcases ha with ha | ⟨h0, _, _, _, _, h4⟩
    · cases ha
    · simp only [PAct.who, Option.some.injEq] at h0
      subst h0
      exact absurd rfl (h4 b)
  by_cases hx : a.who = some i ∧ (w.cl i).pc.inside = false
  · have e1 : w.shadow a = [a] := by
      unfold FW.shadow
      rw [if_neg]
      rintro ⟨h1, _⟩
      rw [hx.1] at h1; cases h1
    rw [FW.inner, if_pos hx, e1]
    simp only [List.foldl_cons, List.foldl_nil]
    rw [PW.inner, if_pos (by rw [← hcl]; exact hx)]
    exact h
  · have e2 : (w.shadow a).foldl (PW.inner c ps (dummyReply .v2 (tgOf cfg)) i) v = v.sched c ps (dummyReply .v2 (tgOf cfg)) (w.shadow a) := by
      unfold FW.shadow PW.sched
      split
      · rfl
      · simp only [List.foldl_cons, List.foldl_nil]
        rw [PW.inner, if_neg (by rw [← hcl]; exact hx)]
    rw [FW.inner, if_neg hx]
    rw [e2] at hS ⊢
    have hrel := h.rel.step (c := c) h.pg h.hp.kind a h.bufs
    exact h.step hok (hrel.same.raced.trans hS.raced) (hrel.same.late.trans hS.late)

theorem All.inners (as : List PAct) (ha : ∀ a ∈ as, a.tame i) : ∀ {w : FW} {v : PW (Dev (W → W))}, All cfg s c ps e0 w v →
    Solo c ps (dummyReply .v2 (tgOf cfg)) 360 i e0 v →
    All cfg s c ps e0 (as.foldl (FW.inner c ps i) w) ((w.trace c ps i as).foldl (PW.inner c ps (dummyReply .v2 (tgOf cfg)) i) v) ∧
      Solo c ps (dummyReply .v2 (tgOf cfg)) 360 i e0 ((w.trace c ps i as).foldl (PW.inner c ps (dummyReply .v2 (tgOf cfg)) i) v) ∧
      ∀ a ∈ w.trace c ps i as, a.tame i := by
  induction as with
  | nil => intro w v h hs; exact ⟨h, hs, (by intro _ h; cases h)⟩
  | cons a as ih =>
    intro w v h hs
    obtain ⟨h1, h2⟩ := h.inner hs (ha a List.mem_cons_self)
    obtain ⟨h3, h4, h5⟩ := ih (fun x hx => ha x (List.mem_cons_of_mem _ hx)) h1 h2
    have e : w.trace c ps i (a :: as) = w.shadow a ++ (w.inner c ps i a).trace c ps i as := rfl
    rw [e, List.foldl_append]
    refine ⟨h3, h4, ?_⟩
    intro x hx
    rcases List.mem_append.1 hx with hx | hx
    · unfold FW.shadow at hx
      split at hx
      · cases hx
      · rw [List.mem_singleton.1 hx]; exact ha a List.mem_cons_self
    · exact h5 x hx

/-- The transports. `P`: what the device with pages does in each call. -/
structure FRel (cfg : List W) (s : Prop) (c : Cfg) (ps : Nat → PCfg) (e0 : Dev (W → W)) (i : Nat) (P : List (List PAct)) (t : FT) (t' : PagedT (Dev (W → W))) : Prop where
  all : All cfg s c ps e0 t.w t'.w
  solo : Solo c ps (dummyReply .v2 (tgOf cfg)) 360 i e0 t'.w
  idle : (t.w.cl i).pc = .idle
  plan : ∀ as ∈ t.plan, ∀ a ∈ as, a.tame i
  trace : ∀ as ∈ t.trace, ∀ a ∈ as, a.tame i
  fut : P = t.trace ++ t'.plan

theorem FRel.call {P : List (List PAct)} {t : FT} {t' : PagedT (Dev (W → W))} {w0 : FW} {v0 : PW (Dev (W → W))} (h : FRel cfg s c ps e0 i P t t')
    (h1 : All cfg s c ps e0 w0 v0) (h2 : Solo c ps (dummyReply .v2 (tgOf cfg)) 360 i e0 v0) {oc : PW (Dev (W → W)) → List (Buf × Option (List W))}
    {cs : PW (Dev (W → W)) → List (Nat × Nat)}
    (hG : ∀ t1, (FT.result ⟨(t.plan.headD []).foldl (FW.inner c ps i) w0, t.plan.tail, t.trace ++ [w0.trace c ps i (t.plan.headD [])]⟩ (t.w.cl i)
      (((t.plan.headD []).foldl (FW.inner c ps i) w0).cl i)).state? = some t1 → t1.trace <+: P) :
    TRel (FRel cfg s c ps e0 i P) (fun _ _ => False)
      (FT.result ⟨(t.plan.headD []).foldl (FW.inner c ps i) w0, t.plan.tail, t.trace ++ [w0.trace c ps i (t.plan.headD [])]⟩ (t.w.cl i)
        (((t.plan.headD []).foldl (FW.inner c ps i) w0).cl i))
      (PagedT.result ⟨(t'.plan.headD []).foldl (PW.inner c ps (dummyReply .v2 (tgOf cfg)) i) v0, t'.plan.tail,
        oc ((t'.plan.headD []).foldl (PW.inner c ps (dummyReply .v2 (tgOf cfg)) i) v0), cs ((t'.plan.headD []).foldl (PW.inner c ps (dummyReply .v2 (tgOf cfg)) i) v0)⟩
        (t'.w.cl i) (((t'.plan.headD []).foldl (PW.inner c ps (dummyReply .v2 (tgOf cfg)) i) v0).cl i)) := by
  have htame : ∀ a ∈ t.plan.headD [], a.tame i := by
    intro a ha
    cases hp : t.plan with
    | nil => rw [hp] at ha; cases ha
    | cons as pl => rw [hp] at ha; exact h.plan as (by rw [hp]; exact List.mem_cons_self) a ha
  obtain ⟨a1, a2, a3⟩ := h1.inners _ htame h2
  have hcl : ((t.plan.headD []).foldl (FW.inner c ps i) w0).cl i = (((w0.trace c ps i (t.plan.headD [])).foldl (PW.inner c ps (dummyReply .v2 (tgOf cfg)) i) v0).cl i) :=
    congrFun a1.rel.same.cl i
  have hpc := a2.pc
  rw [← hcl] at hpc
  cases hp : (((t.plan.headD []).foldl (FW.inner c ps i) w0).cl i).pc with
  | idle =>
    simp only [FT.result, hp] at hG ⊢
    have hpre := hG _ rfl
    obtain ⟨rest, hrest⟩ := hpre
    rw [h.fut, List.append_assoc] at hrest
    have hplan : t'.plan = w0.trace c ps i (t.plan.headD []) :: rest := (List.append_cancel_left hrest).symm
    rw [hplan]
    simp only [List.headD_cons, List.tail_cons]
    rw [← hcl]
    simp only [PagedT.result, hp]
    refine ⟨_, rfl, a1, a2, hp, ?_, ?_, ?_⟩
    · intro as has
      exact h.plan as (List.mem_of_mem_tail has)
    · intro as has
      rcases List.mem_append.1 has with has | has
      · exact h.trace as has
      · rw [List.mem_singleton.1 has]; exact a3
    · rw [h.fut, hplan]; simp
  | thrown => exact absurd hp hpc.1
  | dead => exact absurd hp hpc.2
  | disp b => simp only [FT.result, hp]; trivial
  | flush => simp only [FT.result, hp]; trivial
  | flushed => simp only [FT.result, hp]; trivial

theorem result_trace {t t1 : FT} {u0 u : PCl} (h : (FT.result t u0 u).state? = some t1) : t1 = t := by
  unfold FT.result at h
  split at h <;> simp [Out.state?] at h <;> exact h.symm

theorem fifo_sim (P : List (List PAct)) : TSim (fifoT c ps i) (pagedT c ps (dummyReply .v2 (tgOf cfg)) i) 0 0
    (fun b => PB c (dummyReply .v2 (tgOf cfg)) 360 b ∧ IsReq cfg s b.send) (fun t => t.trace <+: P) (FRel cfg s c ps e0 i P) (fun _ _ => False) := by
  refine ⟨?_, ?_, ?_, ?_, ?_, ?_⟩
  · intro t t' b hb hG h
    rw [Buf.shift_zero]
    have hcl : t.w.cl i = t'.w.cl i := congrFun h.all.rel.same.cl i
    have hidle : (t'.w.cl i).pc = .idle := by rw [← hcl]; exact h.idle
    have hs := h.solo.call hidle hb.1
    have hrel := h.all.rel.step (c := c) h.all.pg h.all.hp.kind (.call i b) h.all.bufs
    have h1 := h.all.step (a := .call i b) hb.2 (hrel.same.raced.trans hs.raced) (hrel.same.late.trans hs.late)
    exact h.call (w0 := t.w.act c ps (.call i b)) h1 hs (oc := fun v => t'.outcomes ++ (t'.w.cl i).outs (v.cl i) [b])
      (cs := fun v => t'.counts ++ [(t'.w.cl i).nums (v.cl i)]) hG
  · intro t t' hG h
    have ht : (PAct.callFlush i).tame i := .inr ⟨rfl, (by intro h; cases h), (by intro h; cases h), (by intro h; cases h), (by intro h; cases h), fun _ => (by intro h; cases h)⟩
    have hs := h.solo.step ht
    have hrel := h.all.rel.step (c := c) h.all.pg h.all.hp.kind (.callFlush i) h.all.bufs
    have h1 := h.all.step (a := .callFlush i) trivial (hrel.same.raced.trans hs.raced) (hrel.same.late.trans hs.late)
    exact h.call (w0 := t.w.act c ps (.callFlush i)) h1 hs (oc := fun v => t'.outcomes ++ (t'.w.cl i).outs (v.cl i) []) (cs := fun _ => t'.counts) hG
  · intro t t' _ h
    exact h.elim
  · intro t b t1 h hG
    have := result_trace h
    subst this
    exact (List.prefix_append _ _).trans hG
  · intro t t1 h hG
    have := result_trace h
    subst this
    exact (List.prefix_append _ _).trans hG
  · intro t h
    exact h

end

/-! ## In the beginning -/

theorem Rel.init (s : Prop) (ps : Nat → PCfg) (pid : BitVec 16) :
    Rel (DH.init pid false).cfg s (FW.init ps pid false) (PW.init ps 3 360 0 0#32 (⟨(DH.init pid false).mem, (DH.init pid false).last⟩ : Dev (W → W))) := by
  refine ⟨⟨rfl, rfl, rfl, rfl, rfl, rfl⟩, rfl, rfl, rfl, rfl, rfl, rfl, rfl, ⟨rfl, rfl, rfl, rfl⟩, (by intro _ h; cases h), rfl, ⟨rfl, rfl, rfl⟩, rfl, rfl, rfl, ?_⟩
  intro x hx
  show Mem.blit (fun _ => 0#32) 0 [3#32, 360#32, 0#32, 0#32] x = Mem.blit (fun _ => 0#32) _ [] x
  rw [blit_nil, Mem.blit_other (by simp; omega)]

theorem All.init (s : Prop) (c : Cfg) (ps : Nat → PCfg) (pid : BitVec 16) (hk : ∀ i, (ps i).kind ≠ .intr) :
    All (DH.init pid false).cfg s c ps ⟨(DH.init pid false).mem, (DH.init pid false).last⟩ (FW.init ps pid false)
      (PW.init ps 3 360 0 0#32 (⟨(DH.init pid false).mem, (DH.init pid false).last⟩ : Dev (W → W))) := by
  obtain ⟨h1, h2⟩ := PG.init c ps (dummyReply .v2 (tgOf (DH.init pid false).cfg)) 3 360 0 0#32 (⟨(DH.init pid false).mem, (DH.init pid false).last⟩ : Dev (W → W))
  refine ⟨Rel.init s ps pid, h1, h2, ?_, (by intro _ _ h; cases h)⟩
  refine ⟨show 0 < 3 by decide, show 4 + 3 * 360 ≤ 2 ^ 30 by decide, show 2 ≤ 360 by decide, show 360 ≤ 0xFFFF by decide, hk,
    fun _ _ => ⟨show 360 ≤ 4096 by decide, show 360 % 2 = 0 by decide⟩, ?_⟩
  intro e q r e' h
  simp only [dummyReply] at h
  repeat' split at h
  all_goals first
    | (exfalso; cases h; done)
    | (cases h; refine analyzeLoop_ne _ _ _ _ _ _ ?_ ‹_›; simp)

end Verif.PcieDummy
