import Verif.Model.UserCalls
import Verif.Lemmas.Sim
import Verif.Props.C15
/-!
# C13 unvalidated memory cannot be observed; C14 validated memory does not change

User programs mix client calls with any calls on the value types. `Twin` relates the state of such a program to the
state of its client calls alone.
-/

set_option autoImplicit false
set_option linter.unusedSimpArgs false

namespace Verif
open Spec
variable {ρ : Type} {c : Cfg} {resp : ρ → List W → Option (List W) × ρ}

/-! ## Statements -/

/-- The accessors of the property. -/
def Call.accessor : Call → Bool
  | .value | .index _ | .at_ _ | .data | .begin_ | .end_ | .rbegin | .rend => true
  | _ => false

/-- The class of the handle has such a member. -/
def Call.fits : Call → Handle → Bool
  | .valid, _ | .setValid _, _ => true
  | .value, .word .. | .assign _, .word .. | .setValue _, .word .. | .mask, .word .. | .setMask _, .word .. => true
  | .value, .vec .. | .pushBack _, .vec .. | .index _, .vec .. | .at_ _, .vec .. | .size, .vec .. | .data, .vec .. | .clear, .vec ..
  | .begin_, .vec .. | .end_, .vec .. | .rbegin, .vec .. | .rend, .vec .. | .setVec _, .vec .. => true
  | _, _ => false

/-- The client calls of a program. -/
def clientOps : List UOp → List Op
  | [] => []
  | .client op :: ps => op :: clientOps ps
  | .user _ _ :: ps => clientOps ps

/-- Reachable states of user programs, from a fresh client, any state of the world and any interleaving. -/
def UReach (c : Cfg) (resp : ρ → List W → Option (List W) × ρ) (ps : List UOp) (rs : List URes) (u : US ρ) : Prop :=
  ∃ e sched, urun c (linkT c resp) ps (US.init (St.init (Link.init e sched))) = some (rs, u)

/-- A packet with the object (all of it: the last part of a block) was answered and the answer accepted. -/
def Accepted (u : US ρ) (o : Nat) : Prop := ∃ e ∈ u.st.tr.log, e.out = .ok ∧ o ∈ e.buf.adds

/-- The program marks the object valid itself. -/
def Forged (ps : List UOp) (o : Nat) : Prop := ∃ h, UOp.user h (.setValid true) ∈ ps ∧ h.obj = o

/-- The program changes the valid flag of the object itself. -/
def Flagged (ps : List UOp) (o : Nat) : Prop := ∃ h k, UOp.user h k ∈ ps ∧ h.obj = o ∧ (k = .clear ∨ ∃ b, k = .setValid b)

/-- The program tries to change the content of the object. -/
def Written (ps : List UOp) (o : Nat) : Prop := ∃ h k, UOp.user h k ∈ ps ∧ h.obj = o ∧
  ((∃ v, k = .assign v) ∨ (∃ v, k = .setValue v) ∨ (∃ v, k = .pushBack v) ∨ (∃ ws, k = .setVec ws))

/-- Calls that bypass the immutability of valid memory. -/
def Call.unchecked : Call → Bool
  | .setValid _ | .assign _ | .setMask _ | .clear => true
  | _ => false

/-! ## The relation -/

/-- Location that validation looks at. -/
def Loc.isData : Loc → Bool
  | .data .. => true
  | _ => false

/-- The verdict depends on headers only. -/
def HdrOnly (c : Cfg) (b : Buf) : Prop :=
  ∀ rd rd' : Loc → W, (∀ l, l.isData = false → rd l = rd' l) → validateBuf c rd b = validateBuf c rd' b

theorem set_congr {h h' : Heap} {l : Loc} (e : h.word l = h'.word l) (a : Loc) (w : W) : (h.set a w).word l = (h'.set a w).word l := by
  simp only [Heap.set]; split
  · rfl
  · exact e

theorem copy_congr {h h' : Heap} {l : Loc} (e : h.word l = h'.word l) (a : Loc) (i : Nat) (ws : List W) :
    (h.copy a i ws).word l = (h'.copy a i ws).word l := by
  induction ws generalizing h h' i with
  | nil => exact e
  | cons w ws ih => rw [Heap.copy, Heap.copy]; exact ih (set_congr e _ _) _

theorem scatter_congr {h h' : Heap} {l : Loc} (e : h.word l = h'.word l) (sls : List Slot) (ws : List W) :
    (scatter h sls ws).word l = (scatter h' sls ws).word l := by
  induction sls generalizing h h' ws with
  | nil => exact e
  | cons s ss ih =>
    rw [scatter, scatter]; split
    · exact e
    · exact ih (copy_congr e _ _ _) _

theorem replay_congr {h h' : Heap} {l : Loc} (e : h.word l = h'.word l) (K : List Rx) :
    (replay c h K).word l = (replay c h' K).word l := by
  induction K generalizing h h' with
  | nil => exact e
  | cons x xs ih =>
    refine ih (h := (receiveReply c h x.buf x.reply).2) (h' := (receiveReply c h' x.buf x.reply).2) ?_
    rw [receive_word, receive_word]; exact scatter_congr e _ _

/-- Two transports that started with heaps `h`, `h'` and have since processed the same replies. -/
structure LinkTwin (c : Cfg) (L : List Rx) (h h' : Heap) (t t' : Link ρ) : Prop where
  pending : t'.pending = t.pending
  env : t'.env = t.env
  sched : t'.sched = t.sched
  pend : ∀ b ∈ t.pending, HdrOnly c b
  log : t'.log = t.log
  hist : ∃ K, t.log = L ++ K ∧ t.heap = replay c h K ∧ t'.heap = replay c h' K ∧ LogOK c h K ∧ LogOK c h' K

variable {L : List Rx} {h h' : Heap}

theorem twin_process (hh : ∀ l, l.isData = false → h.word l = h'.word l) (n : Nat) {t t' : Link ρ} (hR : LinkTwin c L h h' t t') :
    TRel (LinkTwin c L h h') (LinkTwin c L h h') (process c resp n t) (process c resp n t') := by
  induction n generalizing t t' with
  | zero => exact ⟨_, rfl, hR⟩
  | succ n ih =>
    rw [process, process, hR.pending]
    cases hp : t.pending with
    | nil => exact ⟨_, rfl, hR⟩
    | cons b bs =>
      simp only [hR.env]
      have hb : HdrOnly c b := hR.pend b (by simp [hp])
      have hbs : ∀ b ∈ bs, HdrOnly c b := fun b' h' => hR.pend b' (by simp [hp, h'])
      cases hre : resp t.env b.send with
      | mk r env' =>
        cases r with
        | none => exact ⟨_, rfl, ⟨rfl, rfl, hR.sched, hbs, hR.log, hR.hist⟩⟩
        | some ws =>
          simp only
          obtain ⟨K, k1, k2, k3, k4, k5⟩ := hR.hist
          have hw : ∀ l, l.isData = false → t.heap.word l = t'.heap.word l := by
            intro l hl
            rw [k2, k3]; exact replay_congr (hh l hl) K
          have q1 : (receiveReply c t'.heap b ws).1 = (receiveReply c t.heap b ws).1 := by
            rw [receive_out, receive_out]
            exact (hb _ _ fun l hl => scatter_congr (hw l hl) _ _).symm
          have q2 : ∀ o, (receiveReply c t.heap b ws).1 = o → ∃ K, t.log ++ [⟨b, ws, o⟩] = L ++ K ∧
              (receiveReply c t.heap b ws).2 = replay c h K ∧ (receiveReply c t'.heap b ws).2 = replay c h' K ∧
              LogOK c h K ∧ LogOK c h' K := by
            rintro _ rfl
            refine ⟨K ++ [⟨b, ws, _⟩], by rw [k1, List.append_assoc], ?_, ?_, ?_, ?_⟩
            · rw [replay_append, ← k2]; rfl
            · rw [replay_append, ← k3]; rfl
            · rw [LogOK.append, ← k2]; exact ⟨k4, rfl, trivial⟩
            · rw [LogOK.append, ← k3]; exact ⟨k5, q1, trivial⟩
          cases hr : receiveReply c t.heap b ws with
          | mk o hh1 =>
            cases hr' : receiveReply c t'.heap b ws with
            | mk o' hh1' =>
              rw [hr, hr'] at q1 q2
              simp only at q1 q2
              subst q1
              cases o' with
              | ok => exact ih ⟨rfl, rfl, hR.sched, hbs, by simp [hR.log], q2 _ rfl⟩
              | err x => exact ⟨_, rfl, ⟨rfl, rfl, hR.sched, hbs, by simp [hR.log], q2 _ rfl⟩⟩
              | ub => trivial

theorem twin_link (hh : ∀ l, l.isData = false → h.word l = h'.word l) :
    TSim (linkT c resp) (linkT c resp) 0 0 (HdrOnly c) (fun _ => True) (LinkTwin c L h h') (LinkTwin c L h h') := by
  refine ⟨?_, ?_, ?_, fun _ _ _ _ _ => trivial, fun _ _ _ _ => trivial, fun _ _ => trivial⟩
  · intro t t' b hb _ hR
    rw [Buf.shift_zero]
    unfold linkT
    simp only [hR.sched]
    have h0 : LinkTwin c L h h' { t with sched := t.sched.tail } { t' with sched := t.sched.tail } :=
      ⟨hR.pending, hR.env, rfl, hR.pend, hR.log, hR.hist⟩
    have h1 := twin_process (resp := resp) hh (t.sched.headD (0, 0)).1 h0
    cases hp : process c resp (t.sched.headD (0, 0)).1 { t with sched := t.sched.tail } with
    | ok a t1 =>
      rw [hp] at h1
      obtain ⟨t1', e1, h2⟩ := h1
      rw [e1]
      refine twin_process hh _ ⟨by simp [h2.pending], h2.env, by simp [h2.sched], ?_, h2.log, h2.hist⟩
      intro b' hb'
      rcases List.mem_append.1 hb' with h | h
      · exact h2.pend b' h
      · rw [List.mem_singleton] at h; rw [h]; exact hb
    | exc x t1 =>
      rw [hp] at h1
      obtain ⟨t1', e1, h2⟩ := h1
      rw [e1]
      exact ⟨t1', rfl, h2⟩
    | ub => trivial
    | loops => trivial
  · intro t t' _ hR
    have : (linkT c resp).flush t' = process c resp t.pending.length t' := by
      show process c resp t'.pending.length t' = _
      rw [hR.pending]
    rw [this]
    exact twin_process hh _ hR
  · intro t t' _ hR
    exact ⟨rfl, hR.env, hR.sched, by simp [linkT], hR.log, hR.hist⟩

/-- State of a user program against the state of its client calls. `F`: objects marked valid by the user,
`X`: objects whose flag the user has changed, `Y`: objects whose content the user has changed. -/
structure Twin (F X Y : Nat → Prop) (s u : St (Link ρ)) : Prop where
  ctr : u.ctr = s.ctr
  cur : u.cur = s.cur
  nObj : u.nObj = s.nObj
  nPre : u.nPre = s.nPre
  hist : u.hist = s.hist
  pending : u.tr.pending = s.tr.pending
  env : u.tr.env = s.tr.env
  sched : u.tr.sched = s.tr.sched
  log : u.tr.log = s.tr.log
  word : ∀ l, (∀ o i, l = .data o i → ¬ Y o) → u.tr.heap.word l = s.tr.heap.word l
  valid : ∀ o, u.tr.heap.valid o = true → s.tr.heap.valid o = true ∨ F o
  same : ∀ o, ¬ X o → s.tr.heap.valid o = true → u.tr.heap.valid o = true

theorem hdrOnly_fin (hw : WF c) (hcap : CapOK c) (hr : c.ver = .v2 → Roomy c) {f : Fin'} (hf : FinOK c f) : HdrOnly c (f.buf c) := by
  intro rd rd' hrd
  rw [validateBuf_fin hw hf hcap hr, validateBuf_fin hw hf hcap hr]
  congr 1
  have e3 : itemVerdict c.ver rd = itemVerdict c.ver rd' := by
    funext it
    unfold itemVerdict
    rw [hrd _ rfl]
  unfold finVerdict
  rw [e3]
  have e1 : hubV c.hub rd f.g.k = hubV c.hub rd' f.g.k := by
    cases c.hub with
    | none => rfl
    | some q => unfold hubV; simp only; rw [hrd _ rfl, hrd _ rfl]
  have e2 : pktV c.ver rd f.g.k = pktV c.ver rd' f.g.k := by
    cases c.ver with
    | v1 => rfl
    | v2 => unfold pktV; simp only; rw [hrd _ rfl]
  rw [e1, e2]

theorem hdrOnly_hist (hw : WF c) (hcap : CapOK c) (hr : c.ver = .v2 → Roomy c) {ops : List Op} (hops : ∀ op ∈ ops, op.ok c)
    {rs : List Res} {s : St (Link ρ)} (h : Reach c resp ops rs s) : ∀ b ∈ s.hist, HdrOnly c b := by
  intro b hb
  obtain ⟨fs, ls, log0, G, hI, _⟩ := h.inv hw hcap hr hops
  have := hI.ri.rep.hist
  rw [hI.ri.base, ← List.map_append] at this
  rw [this] at hb
  obtain ⟨f, hf, rfl⟩ := List.mem_map.1 hb
  refine hdrOnly_fin hw hcap hr ?_
  rcases List.mem_append.1 hf with h | h
  · exact hI.ri.fin f h
  · exact hI.ri.rep.doneOK f h

theorem hdrOnly_pending (hw : WF c) (hcap : CapOK c) (hr : c.ver = .v2 → Roomy c) {ops : List Op} (hops : ∀ op ∈ ops, op.ok c)
    {rs : List Res} {s : St (Link ρ)} (h : Reach c resp ops rs s) : ∀ b ∈ s.tr.pending, HdrOnly c b := by
  intro b hb
  obtain ⟨fs, ls, log0, G, hI, _⟩ := h.inv hw hcap hr hops
  obtain ⟨_, _, _, _, _, p⟩ := hI.ri.rep.inv
  obtain ⟨f, hf, rfl⟩ := p b hb
  exact hdrOnly_fin hw hcap hr hf

theorem Res.shift_zero (r : Res) : r.shift 0 = r := by
  cases r with
  | ok h => cases h <;> simp [Res.shift, Handle.shift_zero]
  | exc e => rfl

theorem runOps_one {τ : Type} (c : Cfg) (T : Transport τ) (op : Op) (s : St τ) : runOps c T [op] s = match op.run c T s with
    | .ok h s' => some ([.ok h], s')
    | .exc e s' => some ([.exc e], s')
    | _ => none := by
  rw [runOps]
  cases op.run c T s <;> rfl

theorem Reach.snoc {ops : List Op} {rs : List Res} {s s1 : St (Link ρ)} {op : Op} {r : Res} (h : Reach c resp ops rs s)
    (h1 : runOps c (linkT c resp) [op] s = some ([r], s1)) : Reach c resp (ops ++ [op]) (rs ++ [r]) s1 := by
  obtain ⟨e, sched, h⟩ := h
  exact ⟨e, sched, by rw [runOps_append, h]; simp [h1]⟩

/-- A client call in a user program does what it does without the user's calls, and the memory changes by the
replies processed. -/
theorem twin_client (hw : WF c) (hcap : CapOK c) (hr : c.ver = .v2 → Roomy c) {F X Y : Nat → Prop} {ops : List Op}
    (hops : ∀ op ∈ ops, op.ok c) {rs : List Res} {s u : St (Link ρ)} (h : Reach c resp ops rs s) (ht : Twin F X Y s u)
    (op : Op) (hop : op.ok c) : ∃ r s1 u1 K, runOps c (linkT c resp) [op] s = some ([r], s1) ∧
      runOps c (linkT c resp) [op] u = some ([r], u1) ∧ Twin F X Y s1 u1 ∧
      s1.tr.log = s.tr.log ++ K ∧ u1.tr.heap = replay c u.tr.heap K ∧ LogOK c u.tr.heap K := by
  obtain ⟨fs, ls, log0, G, hI, _⟩ := h.inv hw hcap hr hops
  obtain ⟨rr, s1, _, _, _, _, _, h1, _⟩ := lrun (resp := resp) hw hcap hr [] [op] (by simpa using hop) hI
  have hr1 : ∃ r, rr = [r] := by
    rw [runOps_one] at h1
    cases hk : op.run c (linkT c resp) s <;> rw [hk] at h1 <;> simp at h1
    · exact ⟨_, h1.1.symm⟩
    · exact ⟨_, h1.1.symm⟩
  obtain ⟨r, rfl⟩ := hr1
  have hops1 : ∀ o ∈ ops ++ [op], o.ok c := by
    intro o ho
    rcases List.mem_append.1 ho with ho | ho
    · exact hops o ho
    · rw [List.mem_singleton] at ho; rw [ho]; exact hop
  have hh : ∀ l, l.isData = false → s.tr.heap.word l = u.tr.heap.word l := by
    intro l hl
    refine (ht.word l ?_).symm
    rintro o i rfl
    cases hl
  have hrel : SRel 0 0 s.hist u.hist (LinkTwin c s.tr.log s.tr.heap u.tr.heap) s u := by
    refine ⟨ht.ctr, ?_, ht.nObj, ht.nPre, ⟨ht.pending, ht.env, ht.sched, hdrOnly_pending hw hcap hr hops h, ht.log,
      [], by simp, rfl, rfl, trivial, trivial⟩, [], by simp, by simp⟩
    rw [ht.cur]
    cases s.cur <;> simp [Buf.shift_zero]
  obtain ⟨_, u1, h2, hrel1⟩ := sim_run (twin_link (resp := resp) hh) [op] h1 ⟨hdrOnly_hist hw hcap hr hops1 (h.snoc h1), trivial⟩ hrel
  obtain ⟨K, k1, k2, k3, k4, k5⟩ := hrel1.tr.hist
  refine ⟨r, s1, u1, K, h1, ?_, ?_, k1, k3, k5⟩
  · simpa [Res.shift_zero] using h2
  · obtain ⟨H, e1, e2⟩ := hrel1.hist
    refine ⟨hrel1.ctr, ?_, hrel1.nObj, hrel1.nPre, ?_, hrel1.tr.pending, hrel1.tr.env, hrel1.tr.sched, hrel1.tr.log, ?_, ?_, ?_⟩
    · rw [hrel1.cur]
      cases s1.cur <;> simp [Buf.shift_zero]
    · have : Buf.shift 0 0 = id := funext Buf.shift_zero
      rw [e2, e1, ht.hist, this]; simp
    · intro l hl
      rw [k2, k3]
      exact replay_congr (ht.word l hl) K
    · intro o
      rw [k2, k3, replay_valid k4, replay_valid k5]
      rintro (h | h)
      · rcases ht.valid o h with h | h
        · exact .inl (.inl h)
        · exact .inr h
      · exact .inl (.inr h)
    · intro o ho
      rw [k2, k3, replay_valid k4, replay_valid k5]
      rintro (h | h)
      · exact .inl (ht.same o ho h)
      · exact .inr h

/-- The calls of a program respect the sets. -/
def Within (F X Y : Nat → Prop) (h : Handle) : Call → Prop
  | .setValid b => X h.obj ∧ (b = true → F h.obj)
  | .clear => X h.obj
  | .assign _ | .setValue _ | .pushBack _ | .setVec _ => Y h.obj
  | _ => True

/-- What a user call can change. -/
structure UStep (h : Handle) (k : Call) (u u' : US ρ) : Prop where
  st : u'.st = { u.st with tr := { u.st.tr with heap := u'.heap } }
  other : ∀ o, o ≠ h.obj → u'.heap.valid o = u.heap.valid o ∧ u'.mask o = u.mask o ∧ u'.size o = u.size o
  word : ∀ l, (∀ i, l ≠ .data h.obj i) → u'.heap.word l = u.heap.word l
  valid : u'.heap.valid h.obj = u.heap.valid h.obj ∨ (k = .clear ∧ u'.heap.valid h.obj = false) ∨ ∃ b, k = .setValid b ∧ u'.heap.valid h.obj = b
  data : (∀ i, u'.heap.word (.data h.obj i) = u.heap.word (.data h.obj i)) ∨ (∃ v, k = .assign v) ∨
    (u.heap.valid h.obj = false ∧ ((∃ v, k = .setValue v) ∨ (∃ v, k = .pushBack v) ∨ ∃ ws, k = .setVec ws))
  mask : u'.mask h.obj = u.mask h.obj ∨ ∃ m, k = .setMask m
  size : u'.size h.obj = u.size h.obj ∨ k = .clear ∨ u.heap.valid h.obj = false
  handles : u'.handles = u.handles

theorem UStep.refl (h : Handle) (k : Call) (u : US ρ) : UStep h k u u :=
  ⟨rfl, fun _ _ => ⟨rfl, rfl, rfl⟩, fun _ _ => rfl, .inl rfl, .inl fun _ => rfl, .inl rfl, .inl rfl, rfl⟩

theorem copy_valid (h : Heap) (a : Loc) (i : Nat) (ws : List W) : (h.copy a i ws).valid = h.valid := by
  induction ws generalizing h i with
  | nil => rfl
  | cons w ws ih => rw [Heap.copy, ih]; rfl

theorem copy_data_notin (h : Heap) (o : Nat) (j i : Nat) (ws : List W) (l : Loc) (hl : ∀ i, l ≠ .data o i) :
    (h.copy (.data o j) i ws).word l = h.word l := by
  induction ws generalizing h i with
  | nil => rfl
  | cons w ws ih => rw [Heap.copy, ih]; simp only [Heap.set, Loc.plus]; simp [hl]

theorem US.heap_setHeap (u : US ρ) (h : Heap) : (u.setHeap h).heap = h := rfl

theorem ustep {w : Bool} {h : Handle} {k : Call} {u u' : US ρ} {r : UOut} (hk : k.run w h u = some (r, u')) : UStep h k u u' := by
  unfold Call.run at hk
  split at hk
  -- valid
  · cases hk; exact .refl _ _ _
  -- setValid
  · cases hk
    refine ⟨rfl, fun o ho => ⟨?_, rfl, rfl⟩, fun _ _ => rfl, .inr (.inr ⟨_, rfl, ?_⟩), .inl fun _ => rfl, .inl rfl, .inl rfl, rfl⟩
    · simp [US.setFlag, US.heap_setHeap, ho]
    · simp [US.setFlag, US.heap_setHeap]
  -- word value
  · split at hk
    · obtain ⟨x, _, hx⟩ := Option.map_eq_some_iff.1 hk
      cases hx; exact .refl _ _ _
    · cases hk; exact .refl _ _ _
  -- assign
  · cases hk
    refine ⟨rfl, fun o ho => ⟨rfl, rfl, rfl⟩, ?_, .inl rfl, .inr (.inl ⟨_, rfl⟩), .inl rfl, .inl rfl, rfl⟩
    intro l hl
    simp only [US.heap_setHeap, Heap.set]
    exact if_neg (hl 0)
  -- setValue
  · split at hk
    · cases hk; exact .refl _ _ _
    · rename_i hv
      cases hk
      refine ⟨rfl, fun o ho => ⟨rfl, rfl, rfl⟩, ?_, .inl rfl, .inr (.inr ⟨by simpa [Handle.obj] using hv, .inl ⟨_, rfl⟩⟩), .inl rfl, .inl rfl, rfl⟩
      intro l hl
      simp only [US.heap_setHeap, Heap.set]
      exact if_neg (hl 0)
  -- mask
  · cases hk; exact .refl _ _ _
  -- setMask
  · cases hk
    refine ⟨rfl, fun o ho => ⟨rfl, if_neg ho, rfl⟩, fun _ _ => rfl, .inl rfl, .inl fun _ => rfl, .inr ⟨_, rfl⟩, .inl rfl, rfl⟩
  -- pushBack
  · split at hk
    · cases hk; exact .refl _ _ _
    · rename_i hv
      split at hk
      · cases hk
      · cases hk
        refine ⟨rfl, fun o ho => ⟨rfl, rfl, if_neg ho⟩, ?_, .inl rfl, .inr (.inr ⟨by simpa [Handle.obj] using hv, .inr (.inl ⟨_, rfl⟩)⟩), .inl rfl,
          .inr (.inr (by simpa [Handle.obj] using hv)), rfl⟩
        intro l hl
        show (Heap.set _ _ _).word l = _
        simp only [Heap.set]
        exact if_neg (hl _)
  -- index
  · split at hk
    · split at hk
      · cases hk; exact .refl _ _ _
      · cases hk
    · cases hk; exact .refl _ _ _
  -- at
  · split at hk
    · split at hk
      · cases hk; exact .refl _ _ _
      · cases hk; exact .refl _ _ _
    · cases hk; exact .refl _ _ _
  -- size
  · cases hk; exact .refl _ _ _
  -- clear
  · split at hk
    · cases hk
    · cases hk
      refine ⟨rfl, fun o ho => ⟨if_neg ho, rfl, if_neg ho⟩, fun _ _ => rfl, .inr (.inl ⟨rfl, if_pos rfl⟩), .inl fun _ => rfl, .inl rfl,
        .inr (.inl rfl), rfl⟩
  -- value, data, begin, end, rbegin, rend
  · split at hk <;> (cases hk; exact .refl _ _ _)
  · split at hk <;> (cases hk; exact .refl _ _ _)
  · split at hk <;> (cases hk; exact .refl _ _ _)
  · split at hk <;> (cases hk; exact .refl _ _ _)
  · split at hk <;> (cases hk; exact .refl _ _ _)
  · split at hk <;> (cases hk; exact .refl _ _ _)
  -- setVec
  · split at hk
    · cases hk; exact .refl _ _ _
    · rename_i hv
      split at hk
      · cases hk
      · cases hk
        refine ⟨rfl, fun o ho => ⟨?_, rfl, if_neg ho⟩, ?_, .inl ?_, .inr (.inr ⟨by simpa [Handle.obj] using hv, .inr (.inr ⟨_, rfl⟩)⟩), .inl rfl,
          .inr (.inr (by simpa [Handle.obj] using hv)), rfl⟩
        · show (Heap.copy _ _ _ _).valid o = _
          rw [copy_valid]
        · intro l hl
          exact copy_data_notin _ _ _ _ _ _ hl
        · show (Heap.copy _ _ _ _).valid _ = _
          rw [copy_valid]
  · cases hk; exact .refl _ _ _

theorem UStep.twin {F X Y : Nat → Prop} {h : Handle} {k : Call} {u u' : US ρ} {s : St (Link ρ)} (hs : UStep h k u u')
    (hw : Within F X Y h k) (ht : Twin F X Y s u.st) : Twin F X Y s u'.st := by
  have e := hs.st
  refine ⟨by rw [e]; exact ht.ctr, by rw [e]; exact ht.cur, by rw [e]; exact ht.nObj, by rw [e]; exact ht.nPre, by rw [e]; exact ht.hist,
    by rw [e]; exact ht.pending, by rw [e]; exact ht.env, by rw [e]; exact ht.sched, by rw [e]; exact ht.log, ?_, ?_, ?_⟩
  · intro l hl
    refine Eq.trans ?_ (ht.word l hl)
    by_cases hli : ∃ i, l = .data h.obj i
    · obtain ⟨i, rfl⟩ := hli
      have hY := hl _ _ rfl
      rcases hs.data with h | ⟨v, rfl⟩ | ⟨_, ⟨v, rfl⟩ | ⟨v, rfl⟩ | ⟨v, rfl⟩⟩
      · exact h i
      all_goals exact absurd hw hY
    · exact hs.word l fun i hi => hli ⟨i, hi⟩
  · intro o ho
    by_cases hoo : o = h.obj
    · subst hoo
      rcases hs.valid with h1 | ⟨_, h1⟩ | ⟨b, rfl, h1⟩
      · exact ht.valid _ (h1 ▸ ho)
      · rw [show u'.st.tr.heap.valid h.obj = false from h1] at ho; cases ho
      · rw [show u'.st.tr.heap.valid h.obj = b from h1] at ho
        exact .inr (hw.2 ho)
    · exact ht.valid o ((hs.other o hoo).1 ▸ ho)
  · intro o hX ho
    by_cases hoo : o = h.obj
    · subst hoo
      rcases hs.valid with h1 | ⟨rfl, _⟩ | ⟨b, rfl, _⟩
      · exact h1.trans (ht.same _ hX ho)
      · exact absurd hw hX
      · exact absurd hw.1 hX
    · exact (hs.other o hoo).1.trans (ht.same o hX ho)

/-- Every state of a user program has a twin: the state of its client calls alone, which return the same. -/
theorem twin_run (hw : WF c) (hcap : CapOK c) (hr : c.ver = .v2 → Roomy c) {F X Y : Nat → Prop} (ps : List UOp)
    (hok : ∀ op, UOp.client op ∈ ps → op.ok c) (hin : ∀ h k, UOp.user h k ∈ ps → Within F X Y h k)
    {ops : List Op} (hops : ∀ op ∈ ops, op.ok c) {rs : List Res} {s : St (Link ρ)} {u u' : US ρ} {rs' : List URes}
    (h : Reach c resp ops rs s) (ht : Twin F X Y s u.st) (hu : urun c (linkT c resp) ps u = some (rs', u')) :
    ∃ rs1 s1, Reach c resp (ops ++ clientOps ps) rs1 s1 ∧ Twin F X Y s1 u'.st := by
  induction ps generalizing ops rs s u rs' with
  | nil => rw [urun] at hu; cases hu; exact ⟨rs, s, by simpa [clientOps] using h, ht⟩
  | cons p ps ih =>
    have hok' : ∀ op, UOp.client op ∈ ps → op.ok c := fun op ho => hok op (by simp [ho])
    have hin' : ∀ h k, UOp.user h k ∈ ps → Within F X Y h k := fun h k hh => hin h k (by simp [hh])
    cases p with
    | client op =>
      have hop := hok op (by simp)
      have hops1 : ∀ o ∈ ops ++ [op], o.ok c := by
        intro o ho
        rcases List.mem_append.1 ho with ho | ho
        · exact hops o ho
        · rw [List.mem_singleton] at ho; rw [ho]; exact hop
      obtain ⟨r, s1, u1, K, h1, h2, ht1, _⟩ := twin_client hw hcap hr hops h ht op hop
      have hre := h.snoc h1
      rw [urun] at hu
      rw [runOps_one] at h2
      rw [clientOps, show ops ++ op :: clientOps ps = (ops ++ [op]) ++ clientOps ps by simp]
      cases hk : op.run c (linkT c resp) u.st with
      | ok hh s2 =>
        rw [hk] at h2 hu
        simp only [Option.some.injEq, Prod.mk.injEq] at h2
        obtain ⟨_, rfl⟩ := h2
        simp only [Option.map_eq_some_iff] at hu
        obtain ⟨q, hq, hq2⟩ := hu
        obtain ⟨qr, qu⟩ := q
        cases hq2
        exact ih hok' hin' hops1 hre ht1 hq
      | exc e s2 =>
        rw [hk] at h2 hu
        simp only [Option.some.injEq, Prod.mk.injEq] at h2
        obtain ⟨_, rfl⟩ := h2
        simp only [Option.map_eq_some_iff] at hu
        obtain ⟨q, hq, hq2⟩ := hu
        obtain ⟨qr, qu⟩ := q
        cases hq2
        exact ih hok' hin' hops1 hre ht1 hq
      | ub => rw [hk] at h2; simp at h2
      | loops => rw [hk] at h2; simp at h2
    | user hd k =>
      rw [urun] at hu
      rw [clientOps]
      split at hu
      · cases hk : k.run c.wrapNeg hd u with
        | none => rw [hk] at hu; cases hu
        | some p =>
          obtain ⟨r, u1⟩ := p
          rw [hk] at hu
          simp only [Option.map_eq_some_iff] at hu
          obtain ⟨q, hq, hq2⟩ := hu
          obtain ⟨qr, qu⟩ := q
          cases hq2
          exact ih hok' hin' hops h ((ustep hk).twin (hin hd k (by simp)) ht) hq
      · simp only [Option.map_eq_some_iff] at hu
        obtain ⟨q, hq, hq2⟩ := hu
        obtain ⟨qr, qu⟩ := q
        cases hq2
        exact ih hok' hin' hops h ht hq

theorem within_prog (ps : List UOp) (h : Handle) (k : Call) (hm : UOp.user h k ∈ ps) :
    Within (Forged ps) (Flagged ps) (Written ps) h k := by
  cases k with
  | setValid b => exact ⟨⟨h, _, hm, rfl, .inr ⟨b, rfl⟩⟩, fun hb => ⟨h, by rw [← hb]; exact hm, rfl⟩⟩
  | clear => exact ⟨h, _, hm, rfl, .inl rfl⟩
  | assign v => exact ⟨h, _, hm, rfl, .inl ⟨v, rfl⟩⟩
  | setValue v => exact ⟨h, _, hm, rfl, .inr (.inl ⟨v, rfl⟩)⟩
  | pushBack v => exact ⟨h, _, hm, rfl, .inr (.inr (.inl ⟨v, rfl⟩))⟩
  | setVec v => exact ⟨h, _, hm, rfl, .inr (.inr (.inr ⟨v, rfl⟩))⟩
  | _ => trivial

theorem Twin.refl (F X Y : Nat → Prop) (s : St (Link ρ)) : Twin F X Y s s :=
  ⟨rfl, rfl, rfl, rfl, rfl, rfl, rfl, rfl, rfl, fun _ _ => rfl, fun _ h => .inl h, fun _ _ h => h⟩

theorem clientOps_ok {ps : List UOp} (hok : ∀ op, UOp.client op ∈ ps → op.ok c) : ∀ op ∈ clientOps ps, op.ok c := by
  induction ps with
  | nil => intro op ho; cases ho
  | cons p ps ih =>
    have ih := ih fun op ho => hok op (by simp [ho])
    cases p with
    | client op =>
      intro o ho
      rw [clientOps, List.mem_cons] at ho
      rcases ho with rfl | ho
      · exact hok _ (by simp)
      · exact ih o ho
    | user h k => exact ih

theorem UReach.twin (hw : WF c) (hcap : CapOK c) (hr : c.ver = .v2 → Roomy c) {ps : List UOp}
    (hok : ∀ op, UOp.client op ∈ ps → op.ok c) {rs : List URes} {u : US ρ} (h : UReach c resp ps rs u) :
    ∃ rs1 s1, Reach c resp (clientOps ps) rs1 s1 ∧ Twin (Forged ps) (Flagged ps) (Written ps) s1 u.st := by
  obtain ⟨e, sched, h⟩ := h
  exact twin_run hw hcap hr ps hok (within_prog ps) (ops := []) (by simp) (rs := []) ⟨e, sched, rfl⟩ (Twin.refl _ _ _ _) h

theorem run_nonValidated (w : Bool) (h : Handle) (k : Call) (u : US ρ) (hk : k.accessor = true) (hf : k.fits h = true)
    (hv : u.heap.valid h.obj = false) : k.run w h u = some (.nonValidated, u) := by
  cases k <;> simp [Call.accessor] at hk <;> cases h <;> simp [Call.fits] at hf <;> simp only [Handle.obj] at hv <;>
    simp [Call.run, hv]

/-- C13. In every program of client calls and calls on the value types, an object that the program does not mark valid
itself is observable through an accessor only if a packet with it was answered and the answer accepted: otherwise
every accessor throws `NonValidatedMemory`. -/
theorem C13_unobservable (hw : WF c) (hcap : CapOK c) (hr : c.ver = .v2 → Roomy c) (ps : List UOp)
    (hok : ∀ op, UOp.client op ∈ ps → op.ok c) (rs : List URes) (u : US ρ) (h : UReach c resp ps rs u)
    (hd : Handle) (hforge : ¬ Forged ps hd.obj) (hacc : ¬ Accepted u hd.obj) (k : Call) (hk : k.accessor = true) (hf : k.fits hd = true) :
    k.run c.wrapNeg hd u = some (.nonValidated, u) := by
  obtain ⟨rs1, s1, hre, ht⟩ := h.twin hw hcap hr hok
  apply run_nonValidated _ _ _ _ hk hf
  cases hv : u.heap.valid hd.obj with
  | false => rfl
  | true =>
    rcases ht.valid _ hv with h1 | h1
    · refine absurd ?_ hacc
      have := (C15_valid_iff hw hcap hr _ (clientOps_ok hok) rs1 s1 hre hd.obj).1 h1
      unfold Accepted
      rw [ht.log]; exact this
    · exact absurd h1 hforge

/-- C13. Objects of a packet whose answer was refused, or that was never answered, stay unobservable whatever
happens later. (Instance of the above for continuations of a program: no packet with the object is accepted later
either, because every object travels in the packets of one call.) -/
theorem C13_after_failure (hw : WF c) (hcap : CapOK c) (hr : c.ver = .v2 → Roomy c) (ps : List UOp)
    (hok : ∀ op, UOp.client op ∈ ps → op.ok c) (rs : List URes) (u : US ρ) (h : UReach c resp ps rs u)
    (hd : Handle) (hforge : ¬ Forged ps hd.obj) (e : Rx) (he : e ∈ u.st.tr.log) (hout : e.out ≠ .ok)
    (hto : e.buf.touches hd.obj) (k : Call) (hk : k.accessor = true) (hf : k.fits hd = true) :
    k.run c.wrapNeg hd u = some (.nonValidated, u) := by
  refine C13_unobservable hw hcap hr ps hok rs u h hd hforge ?_ k hk hf
  obtain ⟨rs1, s1, hre, ht⟩ := h.twin hw hcap hr hok
  intro hacc
  unfold Accepted at hacc
  rw [ht.log] at hacc he
  have hv := (C15_valid_iff hw hcap hr _ (clientOps_ok hok) rs1 s1 hre hd.obj).2 hacc
  rw [C15_failed_packet hw hcap hr _ (clientOps_ok hok) rs1 s1 hre e he hout hd.obj hto] at hv
  cases hv

/-- C13, converse. After its packet has been accepted an object is observable, unless the program itself has
cleared it: no accessor throws `NonValidatedMemory`; and, unless the program has assigned to it, the words are those
the client calls alone would have left there. -/
theorem C13_observable (hw : WF c) (hcap : CapOK c) (hr : c.ver = .v2 → Roomy c) (ps : List UOp)
    (hok : ∀ op, UOp.client op ∈ ps → op.ok c) (rs : List URes) (u : US ρ) (h : UReach c resp ps rs u)
    (hd : Handle) (hflag : ¬ Flagged ps hd.obj) (hacc : Accepted u hd.obj) :
    (∀ (k : Call) (u' : US ρ), k.run c.wrapNeg hd u ≠ some (.nonValidated, u')) ∧
    ∃ rs1 s1, Reach c resp (clientOps ps) rs1 s1 ∧ s1.tr.heap.valid hd.obj = true ∧
      (¬ Written ps hd.obj → ∀ i, u.heap.word (.data hd.obj i) = s1.tr.heap.word (.data hd.obj i)) := by
  obtain ⟨rs1, s1, hre, ht⟩ := h.twin hw hcap hr hok
  have hv1 : s1.tr.heap.valid hd.obj = true := by
    unfold Accepted at hacc
    rw [ht.log] at hacc
    exact (C15_valid_iff hw hcap hr _ (clientOps_ok hok) rs1 s1 hre hd.obj).2 hacc
  have hv : u.heap.valid hd.obj = true := ht.same _ hflag hv1
  refine ⟨?_, rs1, s1, hre, hv1, ?_⟩
  · intro k u' hrun
    unfold Call.run at hrun
    split at hrun
    all_goals first | (cases hrun; done) | skip
    all_goals simp only [Handle.obj] at hv
    all_goals simp only [hv, if_true] at hrun
    all_goals first
      | (cases hrun; done)
      | (split at hrun <;> cases hrun; done)
      | (obtain ⟨x, _, hx⟩ := Option.map_eq_some_iff.1 hrun; cases hx; done)
  · intro hwr i
    refine ht.word _ ?_
    intro o j hoj
    cases hoj
    exact hwr

/-- What a user program can still do to an object that is valid. -/
theorem frozen_run (hw : WF c) (hcap : CapOK c) (hr : c.ver = .v2 → Roomy c) {F X Y : Nat → Prop} (ps : List UOp)
    (hok : ∀ op, UOp.client op ∈ ps → op.ok c) (hin : ∀ h k, UOp.user h k ∈ ps → Within F X Y h k)
    {ops : List Op} (hops : ∀ op ∈ ops, op.ok c) {rs : List Res} {s : St (Link ρ)} {u u' : US ρ} {rs' : List URes}
    (h : Reach c resp ops rs s) (ht : Twin F X Y s u.st) (hu : urun c (linkT c resp) ps u = some (rs', u'))
    (o : Nat) (hv : u.heap.valid o = true) (hvs : s.tr.heap.valid o = true)
    (hun : ∀ h k, UOp.user h k ∈ ps → h.obj = o → k.unchecked = false) :
    u'.heap.valid o = true ∧ u'.mask o = u.mask o ∧ u'.size o = u.size o ∧ ∀ i, u'.heap.word (.data o i) = u.heap.word (.data o i) := by
  induction ps generalizing ops rs s u rs' with
  | nil => rw [urun] at hu; cases hu; exact ⟨hv, rfl, rfl, fun _ => rfl⟩
  | cons p ps ih =>
    have hok' : ∀ op, UOp.client op ∈ ps → op.ok c := fun op ho => hok op (by simp [ho])
    have hin' : ∀ h k, UOp.user h k ∈ ps → Within F X Y h k := fun h k hh => hin h k (by simp [hh])
    have hun' : ∀ h k, UOp.user h k ∈ ps → h.obj = o → k.unchecked = false := fun h k hh => hun h k (by simp [hh])
    cases p with
    | client op =>
      have hop := hok op (by simp)
      have hops1 : ∀ o ∈ ops ++ [op], o.ok c := by
        intro o ho
        rcases List.mem_append.1 ho with ho | ho
        · exact hops o ho
        · rw [List.mem_singleton] at ho; rw [ho]; exact hop
      obtain ⟨r, s1, u1, K, h1, h2, ht1, k1, k2, k3⟩ := twin_client hw hcap hr hops h ht op hop
      have hre := h.snoc h1
      obtain ⟨more, m1, m2, m3⟩ := later_untouched hw hcap hr ops [op] hops (by simpa using hop) rs [r] s s1 h h1 o hvs
      have hmk : more = K := List.append_cancel_left (m1.symm.trans k1)
      subst hmk
      have hv1 : u1.tr.heap.valid o = true := by rw [k2, replay_valid k3]; exact .inl hv
      have hvs1 := (C15_stays hw hcap hr ops [op] hops (by simpa using hop) rs [r] s s1 h h1 o hvs).1
      have hd1 : ∀ i, u1.tr.heap.word (.data o i) = u.heap.word (.data o i) := by
        intro i
        rw [k2]
        exact replay_notin c _ _ _ fun e he => m3 e he _ rfl
      rw [urun] at hu
      rw [runOps_one] at h2
      cases hk : op.run c (linkT c resp) u.st with
      | ok hh s2 =>
        rw [hk] at h2 hu
        simp only [Option.some.injEq, Prod.mk.injEq] at h2
        obtain ⟨_, rfl⟩ := h2
        simp only [Option.map_eq_some_iff] at hu
        obtain ⟨q, hq, hq2⟩ := hu
        obtain ⟨qr, qu⟩ := q
        cases hq2
        obtain ⟨a1, a2, a3, a4⟩ := ih hok' hin' hops1 hre ht1 hq hv1 hvs1 hun'
        exact ⟨a1, a2, a3, fun i => (a4 i).trans (hd1 i)⟩
      | exc e s2 =>
        rw [hk] at h2 hu
        simp only [Option.some.injEq, Prod.mk.injEq] at h2
        obtain ⟨_, rfl⟩ := h2
        simp only [Option.map_eq_some_iff] at hu
        obtain ⟨q, hq, hq2⟩ := hu
        obtain ⟨qr, qu⟩ := q
        cases hq2
        obtain ⟨a1, a2, a3, a4⟩ := ih hok' hin' hops1 hre ht1 hq hv1 hvs1 hun'
        exact ⟨a1, a2, a3, fun i => (a4 i).trans (hd1 i)⟩
      | ub => rw [hk] at h2; simp at h2
      | loops => rw [hk] at h2; simp at h2
    | user hd k =>
      rw [urun] at hu
      split at hu
      · cases hk : k.run c.wrapNeg hd u with
        | none => rw [hk] at hu; cases hu
        | some p =>
          obtain ⟨r, u1⟩ := p
          rw [hk] at hu
          simp only [Option.map_eq_some_iff] at hu
          obtain ⟨q, hq, hq2⟩ := hu
          obtain ⟨qr, qu⟩ := q
          cases hq2
          have hs := ustep hk
          have key : u1.heap.valid o = true ∧ u1.mask o = u.mask o ∧ u1.size o = u.size o ∧
              ∀ i, u1.heap.word (.data o i) = u.heap.word (.data o i) := by
            by_cases hoo : o = hd.obj
            · have hku := hun hd k (by simp) hoo.symm
              subst hoo
              refine ⟨?_, ?_, ?_, ?_⟩
              · rcases hs.valid with h1 | ⟨rfl, _⟩ | ⟨b, rfl, _⟩
                · exact h1.trans hv
                · exact absurd (show true = false from hku) (by decide)
                · exact absurd (show true = false from hku) (by decide)
              · rcases hs.mask with h1 | ⟨m, rfl⟩
                · exact h1
                · exact absurd (show true = false from hku) (by decide)
              · rcases hs.size with h1 | rfl | h1
                · exact h1
                · exact absurd (show true = false from hku) (by decide)
                · rw [hv] at h1; cases h1
              · rcases hs.data with h1 | ⟨v, rfl⟩ | ⟨h1, _⟩
                · exact h1
                · exact absurd (show true = false from hku) (by decide)
                · rw [hv] at h1; cases h1
            · obtain ⟨b1, b2, b3⟩ := hs.other o hoo
              refine ⟨b1.trans hv, b2, b3, fun i => hs.word _ ?_⟩
              intro j hj
              cases hj
              exact hoo rfl
          obtain ⟨a1, a2, a3, a4⟩ := ih hok' hin' hops h (hs.twin (hin hd k (by simp)) ht) hq key.1 hvs hun'
          exact ⟨a1, a2.trans key.2.1, a3.trans key.2.2.1, fun i => (a4 i).trans (key.2.2.2 i)⟩
      · simp only [Option.map_eq_some_iff] at hu
        obtain ⟨q, hq, hq2⟩ := hu
        obtain ⟨qr, qu⟩ := q
        cases hq2
        exact ih hok' hin' hops h ht hq hv hvs hun'

theorem run_same (w : Bool) (h : Handle) (k : Call) (u u' : US ρ) (hk : k.accessor = true)
    (hv : u.heap.valid h.obj = true) (hv' : u'.heap.valid h.obj = true) (hm : u'.mask h.obj = u.mask h.obj)
    (hs : u'.size h.obj = u.size h.obj) (hw : ∀ i, u'.heap.word (.data h.obj i) = u.heap.word (.data h.obj i)) :
    (k.run w h u').map Prod.fst = (k.run w h u).map Prod.fst := by
  have hc : ∀ n, u'.content h.obj n = u.content h.obj n := by
    intro n; unfold US.content; simp only [hw]
  cases k <;> simp only [Call.accessor, Bool.false_eq_true] at hk <;> cases h <;> simp only [Handle.obj] at hv hv' hm hs hw hc <;>
    simp only [Call.run, hv, hv', if_true, hm, hs, hw, hc, Option.map_some, Option.map_map, Function.comp_def] <;>
    (split <;> rfl)

/-- C14, for the calls that check. Once an object has become valid (through an accepted packet), every accessor
returns the same for ever, whatever client calls and calls on the value types follow, except `valid(bool)`,
`ValWord::operator=`, `ValWord::mask(uint32_t)` and `ValVector::clear` on that object.
Missing for the full claim: these four calls do change what the accessors return (`C14_violated_*`). -/
theorem C14_partial (hw : WF c) (hcap : CapOK c) (hr : c.ver = .v2 → Roomy c) (ps ps' : List UOp)
    (hok : ∀ op, UOp.client op ∈ ps → op.ok c) (hok' : ∀ op, UOp.client op ∈ ps' → op.ok c)
    (rs rs' : List URes) (u u' : US ρ) (h : UReach c resp ps rs u) (h' : urun c (linkT c resp) ps' u = some (rs', u'))
    (hd : Handle) (hforge : ¬ Forged ps hd.obj) (hv : u.heap.valid hd.obj = true)
    (hun : ∀ h k, UOp.user h k ∈ ps' → h.obj = hd.obj → k.unchecked = false) (k : Call) (hk : k.accessor = true) :
    (k.run c.wrapNeg hd u').map Prod.fst = (k.run c.wrapNeg hd u).map Prod.fst := by
  obtain ⟨rs1, s1, hre, ht⟩ := h.twin hw hcap hr hok
  have hvs := (ht.valid _ hv).resolve_right hforge
  have ht' : Twin (fun _ => True) (fun _ => True) (fun _ => True) s1 u.st :=
    ⟨ht.ctr, ht.cur, ht.nObj, ht.nPre, ht.hist, ht.pending, ht.env, ht.sched, ht.log,
      fun l hl => ht.word l fun o i ho hY => hl o i ho trivial, fun _ _ => .inr trivial, fun _ h => absurd trivial h⟩
  obtain ⟨a1, a2, a3, a4⟩ := frozen_run (resp := resp) hw hcap hr ps' hok'
    (fun h k _ => by cases k <;> simp [Within]) (clientOps_ok hok) hre ht' h' hd.obj hv hvs hun
  exact run_same _ _ _ _ _ hk hv a1 a2 a3 a4

/-! ## Violations and examples -/

/-- Results of a user program with given replies. -/
def demoUser (c : Cfg) (replies : List (Option (List W))) (ps : List UOp) : Option (List URes) :=
  (urun c (linkT c listResp) ps (US.init (St.init (Link.init replies [])))).map Prod.fst

/-- C14 is violated: assignment to a valid `ValWord`. -/
theorem C14_violated_assign : demoUser (demoCfg .v2) [some [0x200000F0, 0x20000100, 0xCAFE]]
    [.client (.read 0x10), .client .dispatch, .user (.word 0 noMask) .value, .user (.word 0 noMask) (.setValue 1),
      .user (.word 0 noMask) (.assign 1), .user (.word 0 noMask) .value] =
    some [.client (.ok (some (.word 0 noMask))), .client (.ok none), .user (.word 0xCAFE), .user .immutable, .user .unit,
      .user (.word 1)] := by decide +kernel

/-- C14 is violated: changing the mask of a valid `ValWord`. -/
theorem C14_violated_mask : demoUser (demoCfg .v2) [some [0x200000F0, 0x20000100, 0xCAFE]]
    [.client (.read 0x10), .client .dispatch, .user (.word 0 noMask) .value, .user (.word 0 noMask) (.setMask 0xFF00),
      .user (.word 0 noMask) .value] =
    some [.client (.ok (some (.word 0 noMask))), .client (.ok none), .user (.word 0xCAFE), .user .unit, .user (.word 0xCA)] := by
  decide +kernel

/-- C14 is violated: taking back the validity, assigning through the checked call, and restoring it. -/
theorem C14_violated_flag : demoUser (demoCfg .v2) [some [0x200000F0, 0x20000100, 0xCAFE]]
    [.client (.read 0x10), .client .dispatch, .user (.word 0 noMask) (.setValid false), .user (.word 0 noMask) .value,
      .user (.word 0 noMask) (.setValue 1), .user (.word 0 noMask) (.setValid true), .user (.word 0 noMask) .value] =
    some [.client (.ok (some (.word 0 noMask))), .client (.ok none), .user .unit, .user .nonValidated, .user .unit, .user .unit,
      .user (.word 1)] := by
  decide +kernel

/-- C14 is violated: `ValVector::clear`. -/
theorem C14_violated_clear : demoUser (demoCfg .v2) [some [0x200000F0, 0x20000200, 0xCAFE, 0xBEEF]]
    [.client (.readBlock 0x10 2 true), .client .dispatch, .user (.vec 0 2) .value, .user (.vec 0 2) .clear, .user (.vec 0 2) .value,
      .user (.vec 0 2) .size] =
    some [.client (.ok (some (.vec 0 2))), .client (.ok none), .user (.words [0xCAFE, 0xBEEF]), .user .unit, .user .nonValidated,
      .user (.num 0)] := by
  decide +kernel

/-- Why `C13_unobservable` excludes `valid(true)`: it makes memory observable that was never received. -/
theorem C13_forged : demoUser (demoCfg .v2) []
    [.client (.read 0x10), .user (.word 0 noMask) .value, .user (.word 0 noMask) (.setValid true), .user (.word 0 noMask) .value] =
    some [.client (.ok (some (.word 0 noMask))), .user .nonValidated, .user .unit, .user (.word 0)] := by decide +kernel

/-- A vector that is resized between the queueing and the dispatch of its read is received into freed memory. -/
theorem C13_resized_too_early : demoUser (demoCfg .v2) [some [0x200000F0, 0x20000200, 0xCAFE, 0xBEEF]]
    [.client (.readBlock 0x10 2 true), .user (.vec 0 2) (.pushBack 7), .client .dispatch] = none := by decide +kernel

/-- Non-vacuity: accessors before the dispatch, after a refused answer, and on an accepted one; calls in between. -/
example : demoUser (demoCfg .v2) [some [0x200000F0, 0x20000200, 1, 2, 0x20010104, 0xBEEF], some [0x200000F0, 0x20000100, 0xF00D]]
    [.client (.readBlock 0x10 2 true), .client (.readMasked 0x20 0xFF0), .user (.vec 0 2) (.at_ 0), .user (.word 1 0xFF0) (.setValue 9),
      .client .dispatch, .user (.vec 0 2) .begin_, .user (.word 1 0xFF0) .value, .client (.readMasked 0x20 0xFF0), .client .dispatch,
      .user (.word 2 0xFF0) .value, .user (.word 2 0xFF0) (.setValue 9), .user (.word 2 0xFF0) .value, .user (.word 1 0xFF0) .value] =
    some [.client (.ok (some (.vec 0 2))), .client (.ok (some (.word 1 0xFF0))), .user .nonValidated, .user .unit,
      .client (.exc (.responseCode 4)), .user .nonValidated, .user .nonValidated, .client (.ok (some (.word 2 0xFF0))), .client (.ok none),
      .user (.word 0), .user .immutable, .user (.word 0), .user .nonValidated] := by decide +kernel

end Verif
