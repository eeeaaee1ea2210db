import Verif.Spec.Memory
import Verif.Lemmas.Validate
/-! Contents of the memory after any run over `linkT`. -/

set_option autoImplicit false
set_option linter.unusedSimpArgs false

namespace Verif
open Spec

/-! ### Scattering -/

/-- Store words at locations, one after the other. -/
def Heap.store (h : Heap) (l : List (Loc × W)) : Heap := l.foldl (fun h p => h.set p.1 p.2) h

theorem Heap.store_append (h : Heap) (a b : List (Loc × W)) : h.store (a ++ b) = (h.store a).store b := by
  simp [Heap.store]

theorem copy_store (h : Heap) (l : Loc) (i : Nat) (ws : List W) :
    h.copy l i ws = h.store (((List.range' i ws.length).map l.plus).zip ws) := by
  induction ws generalizing h i with
  | nil => rfl
  | cons w ws ih =>
    rw [Heap.copy, ih, List.length_cons, List.range'_succ, List.map_cons, List.zip_cons_cons]; rfl

theorem zip_append_left {α β : Type} (a b : List α) (ws : List β) :
    (a ++ b).zip ws = a.zip (ws.take a.length) ++ b.zip (ws.drop a.length) := by
  induction a generalizing ws with
  | nil => simp
  | cons x a ih =>
    cases ws with
    | nil => simp
    | cons w ws => simp [ih]

theorem zip_append_eq {α β : Type} {a b : List α} {x y : List β} (h : a.length = x.length) :
    (a ++ b).zip (x ++ y) = a.zip x ++ b.zip y := by
  rw [zip_append_left, h, List.take_left, List.drop_left]

theorem zip_take_left {α β : Type} (a : List α) (ws : List β) : a.zip (ws.take a.length) = a.zip ws := by
  induction a generalizing ws with
  | nil => simp
  | cons x a ih =>
    cases ws with
    | nil => simp
    | cons w ws => simp [ih]

theorem map_fst_zip_take {α β : Type} (a : List α) (ws : List β) : (a.zip ws).map Prod.fst = a.take ws.length := by
  induction a generalizing ws with
  | nil => simp
  | cons x a ih =>
    cases ws with
    | nil => simp
    | cons w ws => simp [ih]

theorem scatter_store (h : Heap) (sls : List Slot) (ws : List W) :
    scatter h sls ws = h.store ((sls.flatMap slotLocs).zip ws) := by
  induction sls generalizing h ws with
  | nil => simp [scatter, Heap.store]
  | cons s ss ih =>
    unfold scatter
    split
    · rename_i h0; subst h0; simp [Heap.store]
    · rw [ih, List.flatMap_cons, zip_append_left, Heap.store_append, copy_store]
      have hl : (slotLocs s).length = s.len := by simp [slotLocs]
      rw [hl]
      congr 2
      have : ∀ (n : Nat) (f : Nat → Loc), ((List.range' 0 (ws.take n).length).map f).zip (ws.take n) =
          ((List.range n).map f).zip (ws.take n) := by
        intro n f
        rw [List.range_eq_range']
        by_cases hn : n ≤ ws.length
        · rw [List.length_take, Nat.min_eq_left hn]
        · have ht : ws.take n = ws := List.take_of_length_le (by omega)
          rw [ht]
          have : List.range' 0 n = List.range' 0 ws.length ++ List.range' ws.length (n - ws.length) := by
            have := List.range'_append_1 (s := 0) (m := ws.length) (n := n - ws.length)
            rw [Nat.zero_add] at this
            rw [this]; congr 1; omega
          rw [this, List.map_append, zip_append_left]
          simp
      rw [this]; rfl

theorem store_valid (h : Heap) (l : List (Loc × W)) : (h.store l).valid = h.valid := by
  induction l generalizing h with
  | nil => rfl
  | cons p l ih => show ((h.set p.1 p.2).store l).valid = _; rw [ih]; rfl

theorem store_notin (h : Heap) (l : List (Loc × W)) (a : Loc) (ha : a ∉ l.map Prod.fst) : (h.store l).word a = h.word a := by
  induction l generalizing h with
  | nil => rfl
  | cons p l ih =>
    simp only [List.map_cons, List.mem_cons, not_or] at ha
    show ((h.set p.1 p.2).store l).word a = _
    rw [ih _ ha.2]
    simp [Heap.set, ha.1]

theorem store_in (h : Heap) (l : List (Loc × W)) (a : Loc) (w : W) (hn : (l.map Prod.fst).Nodup) (ha : (a, w) ∈ l) :
    (h.store l).word a = w := by
  induction l generalizing h with
  | nil => simp at ha
  | cons p l ih =>
    simp only [List.map_cons, List.nodup_cons] at hn
    show ((h.set p.1 p.2).store l).word a = _
    simp only [List.mem_cons] at ha
    rcases ha with rfl | ha
    · rw [store_notin _ _ _ hn.1]; simp [Heap.set]
    · exact ih _ hn.2 ha

/-- Locations of the packet preamble. -/
def preLocs (c : Cfg) (k : Nat) : List Loc := (preSlots c k).flatMap slotLocs

theorem slots_locs (it : Item) : (slots it).flatMap slotLocs = itemLocs it := by
  unfold slots itemLocs
  cases hd : txData it.txn <;> simp [slotLocs, Loc.plus, Function.comp_def]

theorem items_locs (its : List Item) : (its.flatMap slots).flatMap slotLocs = its.flatMap itemLocs := by
  rw [List.flatMap_assoc]
  congr 1
  funext it; exact slots_locs it

theorem fin_locs (c : Cfg) (f : Fin') : bufLocs (f.buf c) = preLocs c f.g.k ++ f.all.flatMap itemLocs := by
  unfold bufLocs Fin'.buf
  rw [patch_reply]
  unfold mkBuf
  simp only [List.flatMap_append, items_locs]
  rfl

/-- Locations of objects (not of packet preambles). -/
def Loc.isObj : Loc → Prop
  | .hdr .. => True
  | .data .. => True
  | _ => False

theorem preLocs_obj {c : Cfg} {k : Nat} {l : Loc} (h : l ∈ preLocs c k) : ¬ l.isObj := by
  unfold preLocs preSlots at h
  cases hh : c.hub <;> cases hv : c.ver <;> simp [hh, hv, slotLocs, List.range_succ, Loc.plus] at h <;>
    (try rcases h with rfl | rfl | rfl | rfl) <;> (try rcases h with rfl | rfl | rfl) <;> (try subst h) <;> simp [Loc.isObj]

theorem itemLocs_isObj {it : Item} {l : Loc} (h : l ∈ itemLocs it) : l.isObj := by
  rcases itemLocs_obj h with ⟨k, rfl⟩ | ⟨i, rfl⟩ <;> trivial

theorem preLocs_length (c : Cfg) (k : Nat) : (preLocs c k).length = preSlotCount c := by
  unfold preLocs preSlots preSlotCount
  cases c.hub <;> cases c.ver <;> simp [slotLocs]

theorem preLocs_nodup (c : Cfg) (k : Nat) : (preLocs c k).Nodup := by
  unfold preLocs preSlots
  cases c.hub <;> cases c.ver <;> simp [slotLocs, List.range_succ, Loc.plus]

theorem fin_nodup {c : Cfg} {f : Fin'} (h : FinOK c f) : (bufLocs (f.buf c)).Nodup := by
  rw [fin_locs, List.nodup_append]
  refine ⟨preLocs_nodup _ _, h.nodup, ?_⟩
  intro a ha b hb hab
  subst hab
  rw [List.mem_flatMap] at hb
  obtain ⟨it, _, hb⟩ := hb
  exact preLocs_obj ha (itemLocs_isObj hb)

/-- Memory after a reply has been received: delivered words. -/
theorem scatter_in {b : Buf} (hn : (bufLocs b).Nodup) (h : Heap) (ws : List W) (p : Nat) (l : Loc) (w : W)
    (hl : (bufLocs b)[p]? = some l) (hw : ws[p]? = some w) : (scatter h b.reply ws).word l = w := by
  rw [scatter_store]
  refine store_in _ _ _ _ ?_ ?_
  · refine List.Nodup.sublist ?_ hn
    rw [map_fst_zip_take]; exact List.take_sublist _ _
  · refine List.mem_of_getElem? (i := p) ?_
    rw [List.getElem?_zip_eq_some]; exact ⟨hl, hw⟩

/-- Words that were not delivered keep their content. -/
theorem scatter_short {b : Buf} (hn : (bufLocs b).Nodup) (h : Heap) (ws : List W) (p : Nat) (l : Loc)
    (hl : (bufLocs b)[p]? = some l) (hw : ws[p]? = none) : (scatter h b.reply ws).word l = h.word l := by
  rw [scatter_store]
  apply store_notin
  intro hm
  rw [show b.reply.flatMap slotLocs = bufLocs b from rfl, map_fst_zip_take] at hm
  obtain ⟨q, hq'⟩ := List.mem_iff_getElem?.1 hm
  rw [List.getElem?_take] at hq'
  split at hq'
  · rename_i hlt
    have hpq : p = q := by
      obtain ⟨hp1, hp2⟩ := List.getElem?_eq_some_iff.1 hl
      obtain ⟨hq1, hq2⟩ := List.getElem?_eq_some_iff.1 hq'
      exact (List.getElem_inj hn).1 (hp2.trans hq2.symm)
    subst hpq
    rw [List.getElem?_eq_none_iff] at hw
    omega
  · cases hq'

theorem scatter_notin (h : Heap) (b : Buf) (ws : List W) (l : Loc) (hl : l ∉ bufLocs b) :
    (scatter h b.reply ws).word l = h.word l := by
  rw [scatter_store]
  apply store_notin
  intro hm
  rw [map_fst_zip_take] at hm
  exact hl (List.mem_of_mem_take hm)

theorem scatter_valid (h : Heap) (sls : List Slot) (ws : List W) : (scatter h sls ws).valid = h.valid := by
  rw [scatter_store, store_valid]

theorem receive_word (c : Cfg) (h : Heap) (b : Buf) (ws : List W) :
    (receiveReply c h b ws).2.word = (scatter h b.reply ws).word := by
  unfold receiveReply clientValidate
  split <;> rfl

theorem receive_out (c : Cfg) (h : Heap) (b : Buf) (ws : List W) :
    (receiveReply c h b ws).1 = validateBuf c (scatter h b.reply ws).word b := by
  unfold receiveReply clientValidate
  split
  · rename_i h1; rw [h1]
  · rfl

theorem receive_valid (c : Cfg) (h : Heap) (b : Buf) (ws : List W) (o : Nat) :
    (receiveReply c h b ws).2.valid o = true ↔ h.valid o = true ∨ ((receiveReply c h b ws).1 = .ok ∧ o ∈ b.adds) := by
  rw [receive_out]
  unfold receiveReply clientValidate
  split
  · rename_i h1
    rw [h1]
    simp only [Heap.markValid, scatter_valid, Bool.or_eq_true, decide_eq_true_eq, true_and]
    exact Or.comm
  · rename_i h1
    simp only [scatter_valid]
    constructor
    · exact .inl
    · rintro (h2 | ⟨h2, _⟩)
      · exact h2
      · exact absurd h2 h1

/-! ### Replaying a log -/

/-- Memory after the processed replies of a log. -/
def replay (c : Cfg) (h : Heap) (log : List Rx) : Heap := log.foldl (fun h e => (receiveReply c h e.buf e.reply).2) h

theorem replay_append (c : Cfg) (h : Heap) (a b : List Rx) : replay c h (a ++ b) = replay c (replay c h a) b := by
  simp [replay]

/-- The recorded results are those of validation. -/
def LogOK (c : Cfg) : Heap → List Rx → Prop
  | _, [] => True
  | h, e :: es => (receiveReply c h e.buf e.reply).1 = e.out ∧ LogOK c (receiveReply c h e.buf e.reply).2 es

theorem LogOK.append {c : Cfg} {h : Heap} {a b : List Rx} : LogOK c h (a ++ b) ↔ LogOK c h a ∧ LogOK c (replay c h a) b := by
  induction a generalizing h with
  | nil => simp [LogOK, replay]
  | cons e a ih =>
    simp only [List.cons_append, LogOK, ih, and_assoc]
    rfl

theorem replay_valid {c : Cfg} {h : Heap} {log : List Rx} (hl : LogOK c h log) (o : Nat) :
    (replay c h log).valid o = true ↔ h.valid o = true ∨ ∃ e ∈ log, e.out = .ok ∧ o ∈ e.buf.adds := by
  induction log generalizing h with
  | nil => simp [replay]
  | cons e es ih =>
    show (replay c (receiveReply c h e.buf e.reply).2 es).valid o = true ↔ _
    rw [ih hl.2, receive_valid, hl.1]
    simp only [List.mem_cons, exists_eq_or_imp, or_assoc]

theorem replay_notin (c : Cfg) (h : Heap) (log : List Rx) (l : Loc) (hl : ∀ e ∈ log, l ∉ bufLocs e.buf) :
    (replay c h log).word l = h.word l := by
  induction log generalizing h with
  | nil => rfl
  | cons e es ih =>
    show (replay c (receiveReply c h e.buf e.reply).2 es).word l = _
    rw [ih _ (fun x hx => hl x (by simp [hx])), receive_word, scatter_notin _ _ _ _ (hl e (by simp))]

/-- A log whose buffers are packets of the client, all with different memory. -/
structure LogDesc (c : Cfg) (log : List Rx) (ls : List Fin') : Prop where
  bufs : log.map Rx.buf = ls.map (Fin'.buf c)
  fin : ∀ f ∈ ls, FinOK c f
  nodup : ((ls.flatMap Fin'.all).flatMap itemLocs).Nodup
  last : (ls.flatMap Fin'.all).Pairwise LastBefore
  ok : LogOK c .fresh log

theorem LogDesc.split {c : Cfg} {pre post : List Rx} {e : Rx} {ls : List Fin'} (h : LogDesc c (pre ++ e :: post) ls) :
    ∃ l1 f l2, ls = l1 ++ f :: l2 ∧ pre.map Rx.buf = l1.map (Fin'.buf c) ∧ e.buf = f.buf c ∧
      post.map Rx.buf = l2.map (Fin'.buf c) := by
  have hb := h.bufs
  rw [List.map_append, List.map_cons] at hb
  obtain ⟨l1, l2', h1, h2, h3⟩ := List.append_eq_map_iff.1 hb
  obtain ⟨f, l2, rfl, h4, h5⟩ := List.map_eq_cons_iff.1 h3
  exact ⟨l1, f, l2, h1, h2.symm, h4.symm, h5.symm⟩

theorem flatMap_itemLocs_disj {l1 l2 : List Item} (h : ((l1 ++ l2).flatMap itemLocs).Nodup) {l : Loc}
    (h1 : l ∈ l1.flatMap itemLocs) (h2 : l ∈ l2.flatMap itemLocs) : False := by
  rw [List.flatMap_append, List.nodup_append] at h
  exact h.2.2 l h1 l h2 rfl

theorem notin_bufs {c : Cfg} {es : List Rx} {l2 : List Fin'} (hb : es.map Rx.buf = l2.map (Fin'.buf c)) {l : Loc}
    (hobj : l.isObj) (hl : l ∉ (l2.flatMap Fin'.all).flatMap itemLocs) : ∀ e ∈ es, l ∉ bufLocs e.buf := by
  intro e he hm
  have : e.buf ∈ l2.map (Fin'.buf c) := by rw [← hb]; exact List.mem_map_of_mem he
  obtain ⟨f, hf, hfe⟩ := List.mem_map.1 this
  rw [← hfe, fin_locs, List.mem_append] at hm
  rcases hm with hm | hm
  · exact preLocs_obj hm hobj
  · apply hl
    rw [List.mem_flatMap] at hm ⊢
    obtain ⟨it, hit, hm⟩ := hm
    exact ⟨it, by rw [List.mem_flatMap]; exact ⟨f, hf, hit⟩, hm⟩

/-- The words of objects after a whole run: those delivered in the reply to the packet they belong to, zero
if the reply was too short. -/
theorem LogDesc.word {c : Cfg} {pre post : List Rx} {e : Rx} {ls : List Fin'} (h : LogDesc c (pre ++ e :: post) ls)
    {p : Nat} {l : Loc} (hl : (bufLocs e.buf)[p]? = some l) (hobj : l.isObj) :
    (replay c .fresh (pre ++ e :: post)).word l = e.reply[p]?.getD 0 ∧
      (scatter (replay c .fresh pre) e.buf.reply e.reply).word l = e.reply[p]?.getD 0 := by
  obtain ⟨l1, f, l2, hls, h1, h2, h3⟩ := h.split
  have hn := h.nodup
  rw [hls, List.flatMap_append, List.flatMap_cons] at hn
  have hf : l ∈ f.all.flatMap itemLocs := by
    have := List.mem_of_getElem? hl
    rw [h2, fin_locs, List.mem_append] at this
    exact this.elim (fun h => absurd hobj (preLocs_obj h)) id
  have hn1 : l ∉ (l1.flatMap Fin'.all).flatMap itemLocs := by
    intro hm
    rw [List.flatMap_append, List.nodup_append] at hn
    refine hn.2.2 l hm l ?_ rfl
    rw [List.flatMap_append, List.mem_append]; exact .inl hf
  have hn2 : l ∉ (l2.flatMap Fin'.all).flatMap itemLocs := by
    intro hm
    rw [List.flatMap_append, List.nodup_append] at hn
    exact flatMap_itemLocs_disj hn.2.1 hf hm
  have hfn : (bufLocs e.buf).Nodup := by rw [h2]; exact fin_nodup (h.fin f (by rw [hls]; simp))
  have key : (scatter (replay c .fresh pre) e.buf.reply e.reply).word l = e.reply[p]?.getD 0 := by
    cases hw : e.reply[p]? with
    | some w => rw [scatter_in hfn _ _ _ _ _ hl hw]; rfl
    | none =>
      rw [scatter_short hfn _ _ _ _ hl hw, replay_notin _ _ _ _ (notin_bufs h1 hobj hn1)]
      rfl
  refine ⟨?_, key⟩
  rw [replay_append]
  show (replay c (receiveReply c (replay c .fresh pre) e.buf e.reply).2 post).word l = _
  rw [replay_notin _ _ _ _ (notin_bufs h3 hobj hn2), receive_word, key]

theorem LogDesc.out {c : Cfg} {pre post : List Rx} {e : Rx} {ls : List Fin'} (h : LogDesc c (pre ++ e :: post) ls) :
    e.out = validateBuf c (scatter (replay c .fresh pre) e.buf.reply e.reply).word e.buf := by
  have := (LogOK.append.1 h.ok).2.1
  rw [← this, receive_out]


/-! ### The transport keeps its promises -/

theorem finVerdict_e {c : Cfg} {rd : Loc → W} {f : Fin'} {e : Exc} (h : finVerdict c rd f = some e) : e ≠ .bitsForbidden := by
  have h1 : hubV c.hub rd f.g.k ≠ some .bitsForbidden := by
    unfold hubV
    split
    · simp
    · unfold hubVerdict; simp only; split
      · simp
      · split
        · simp
        · split
          · simp
          · split <;> simp
  have h2 : pktV c.ver rd f.g.k ≠ some .bitsForbidden := by
    unfold pktV; split
    · simp
    · split <;> simp
  have h3 : ∀ its : List Item, its.findSome? (itemVerdict c.ver rd) ≠ some .bitsForbidden := by
    intro its hh
    rw [List.findSome?_eq_some_iff] at hh
    obtain ⟨_, it, _, _, hv, _⟩ := hh
    unfold itemVerdict verdict at hv
    split at hv
    · simp at hv
    · split at hv
      · simp at hv
      · split at hv <;> simp at hv
  rintro rfl
  unfold finVerdict at h
  rw [Option.or_eq_some_iff] at h
  rcases h with h | ⟨_, h⟩
  · exact h1 h
  · rw [Option.or_eq_some_iff] at h
    rcases h with h | ⟨_, h⟩
    · exact h2 h
    · exact h3 _ h

/-- What is fixed during one epoch (the time between two failures): packets handed over before it, the log at its
beginning, and some log that was there before. -/
structure Ep where
  base : List Buf
  log0 : List Rx
  pre : List Rx

section
variable {ρ : Type}

/-- Memory and log fit together, in every epoch. -/
structure LCore (c : Cfg) (i : Ep) (t : Link ρ) : Prop where
  heap : t.heap = replay c .fresh t.log
  ok : LogOK c .fresh t.log
  pre : i.pre <+: t.log

/-- Invariant within an epoch: every packet of the epoch has been answered successfully or is waiting. -/
def LP (c : Cfg) (i : Ep) (h : List Buf) (t : Link ρ) : Prop :=
  LCore c i t ∧ ∃ logE, t.log = i.log0 ++ logE ∧ h = i.base ++ (logE.map Rx.buf ++ t.pending) ∧
    (∀ e ∈ logE, e.out = .ok) ∧ ∀ b ∈ t.pending, ∃ f, FinOK c f ∧ b = f.buf c

/-- Nothing is waiting. -/
def LF (t : Link ρ) : Prop := t.pending = []

/-- After a failure: the last packet answered was refused, or the next one was not answered; the rest are given up. -/
def LPe (c : Cfg) (i : Ep) (h : List Buf) (e : Exc) (t : Link ρ) : Prop :=
  LCore c i t ∧ e ≠ .bitsForbidden ∧ ∃ logE rest, t.log = i.log0 ++ logE ∧ h = i.base ++ (logE.map Rx.buf ++ rest) ∧
    ((∃ l x, logE = l ++ [x] ∧ (∀ y ∈ l, y.out = .ok) ∧ x.out = .err e) ∨
     ((∀ y ∈ logE, y.out = .ok) ∧ e = .transport 0 ∧ rest ≠ []))

variable {c : Cfg} {resp : ρ → List W → Option (List W) × ρ}

theorem process_spec (hw : WF c) (hcap : CapOK c) (hr : c.ver = .v2 → Roomy c) (i : Ep) (n : Nat) (h : List Buf) (l : Link ρ)
    (hP : LP c i h l) : match process c resp n l with
      | .ok _ l' => LP c i h l' ∧ (l.pending.length ≤ n → l'.pending = []) ∧ l'.sched = l.sched
      | .exc e l' => LPe c i h e l'
      | _ => False := by
  induction n generalizing l with
  | zero =>
    refine ⟨hP, ?_, rfl⟩
    intro h0
    exact List.length_eq_zero_iff.1 (Nat.le_zero.1 h0)
  | succ n ih =>
    obtain ⟨⟨hheap, hok, hpre⟩, logE, hlog, hh, hall, hfin⟩ := hP
    rw [process]
    cases hp : l.pending with
    | nil => exact ⟨⟨⟨hheap, hok, hpre⟩, logE, hlog, hh, hall, hfin⟩, fun _ => hp, rfl⟩
    | cons b bs =>
      simp only
      cases hre : resp l.env b.send with
      | mk r env' =>
        cases r with
        | none =>
          refine ⟨⟨hheap, hok, hpre⟩, by simp, logE, b :: bs, hlog, by rw [hh, hp], .inr ⟨hall, rfl, by simp⟩⟩
        | some ws =>
          simp only
          obtain ⟨f, hf, rfl⟩ := hfin b (by rw [hp]; simp)
          have hval := validateBuf_fin hw hf hcap hr (scatter l.heap (f.buf c).reply ws).word
          have hout := receive_out c l.heap (f.buf c) ws
          rw [hval] at hout
          have hcore : ∀ out, (receiveReply c l.heap (f.buf c) ws).1 = out →
              LogOK c .fresh (l.log ++ [⟨f.buf c, ws, out⟩]) ∧
              (receiveReply c l.heap (f.buf c) ws).2 = replay c .fresh (l.log ++ [⟨f.buf c, ws, out⟩]) := by
            intro out ho
            constructor
            · rw [LogOK.append]
              refine ⟨hok, ?_, trivial⟩
              rw [← hheap]; exact ho
            · rw [replay_append, ← hheap]; rfl
          cases hv : finVerdict c (scatter l.heap (f.buf c).reply ws).word f with
          | none =>
            rw [hv] at hout
            obtain ⟨c1, c2⟩ := hcore _ hout
            have hre2 : receiveReply c l.heap (f.buf c) ws = (VOut.ok, (receiveReply c l.heap (f.buf c) ws).2) :=
              Prod.ext hout rfl
            rw [hre2]
            simp only
            have := ih { l with heap := (receiveReply c l.heap (f.buf c) ws).2, pending := bs, env := env', log := l.log ++ [⟨f.buf c, ws, .ok⟩] }
              ⟨⟨c2, c1, hpre.trans (List.prefix_append _ _)⟩, logE ++ [⟨f.buf c, ws, .ok⟩],
                by rw [hlog, List.append_assoc], by rw [hh, hp]; simp, by
                  intro x hx
                  rw [List.mem_append] at hx
                  rcases hx with hx | hx
                  · exact hall x hx
                  · simp at hx; rw [hx], fun x hx => hfin x (by rw [hp]; simp [hx])⟩
            revert this
            cases process c resp n _ with
            | ok u l' =>
              intro ⟨h1, h2, h3⟩
              refine ⟨h1, ?_, h3⟩
              intro hlen
              exact h2 (by simpa using hlen)
            | exc e l' => exact id
            | ub => exact id
            | loops => exact id
          | some e =>
            rw [hv] at hout
            obtain ⟨c1, c2⟩ := hcore _ hout
            have hre2 : receiveReply c l.heap (f.buf c) ws = (VOut.err e, (receiveReply c l.heap (f.buf c) ws).2) :=
              Prod.ext hout rfl
            rw [hre2]
            simp only
            refine ⟨⟨c2, c1, hpre.trans (List.prefix_append _ _)⟩, finVerdict_e hv, logE ++ [⟨f.buf c, ws, .err e⟩], bs,
              by rw [hlog, List.append_assoc], by rw [hh, hp]; simp, .inl ⟨logE, _, rfl, hall, rfl⟩⟩

theorem link_TOK (hw : WF c) (hcap : CapOK c) (hr : c.ver = .v2 → Roomy c) (i : Ep) :
    TOK c (linkT c resp) (LP c i) LF (LPe c i) := by
  constructor
  · intro h t f hP hf
    unfold linkT
    simp only
    have hP' : LP c i h { t with sched := t.sched.tail } := ⟨⟨hP.1.heap, hP.1.ok, hP.1.pre⟩, hP.2⟩
    have h1 := process_spec (resp := resp) hw hcap hr i (t.sched.headD (0, 0)).1 h _ hP'
    revert h1
    cases process c resp (t.sched.headD (0, 0)).1 { t with sched := t.sched.tail } with
    | ok u l1 =>
      intro ⟨⟨⟨a1, a2, a3⟩, logE, a4, a5, a6, a7⟩, _⟩
      simp only
      have h2 := process_spec (resp := resp) hw hcap hr i (t.sched.headD (0, 0)).2 (h ++ [f.buf c])
        { l1 with pending := l1.pending ++ [f.buf c] }
        ⟨⟨a1, a2, a3⟩, logE, a4, by rw [a5]; simp, a6, by
          intro b hb
          simp only [List.mem_append, List.mem_singleton] at hb
          rcases hb with hb | hb
          · exact a7 b hb
          · exact ⟨f, hf, hb⟩⟩
      revert h2
      cases process c resp (t.sched.headD (0, 0)).2 _ with
      | ok u l2 => exact fun h => h.1
      | exc e l2 => exact id
      | ub => exact id
      | loops => exact id
    | exc e l1 =>
      intro ⟨a0, a1, logE, rest, a2, a3, a4⟩
      simp only
      refine ⟨a0, a1, logE, rest ++ [f.buf c], a2, by rw [a3]; simp, ?_⟩
      rcases a4 with a4 | ⟨b1, b2, b3⟩
      · exact .inl a4
      · exact .inr ⟨b1, b2, by simp⟩
    | ub => exact id
    | loops => exact id
  · intro h t hP
    have h1 := process_spec (resp := resp) hw hcap hr i t.pending.length h t hP
    have hfl : (linkT c resp).flush t = process c resp t.pending.length t := rfl
    rw [hfl]
    revert h1
    cases process c resp t.pending.length t with
    | ok u l1 => exact fun h => ⟨h.1, h.2.1 (Nat.le_refl _)⟩
    | exc e l2 => exact id
    | ub => exact id
    | loops => exact id

/-- Separation of a refused packet from later ones. -/
def SepR (a b : Rx × Fin') : Prop := a.1.out ≠ .ok → ∀ it ∈ a.2.all, ∀ it' ∈ b.2.all, it.obj < it'.obj

/-- If an object is completed by an accepted packet, then all packets with a part of it were accepted. -/
def Cov (fs : List Fin') (log : List Rx) (ls : List Fin') : Prop :=
  ∀ p ∈ log.zip ls, p.1.out = .ok → ∀ it' ∈ p.2.all, it'.last = true → ∀ f ∈ fs, ∀ it ∈ f.all, it.obj = it'.obj →
    ∃ e, (e, f) ∈ log.zip ls ∧ e.out = .ok

/-- One more epoch. -/
theorem Cov.extend {fs ls d1 d2 : List Fin'} {log0 logE : List Rx} (h : Cov fs log0 ls)
    (hl : log0.length = ls.length) (hl' : logE.length = d1.length) (hsub : ls.Sublist fs)
    (hs : ∀ f ∈ fs, ∀ it ∈ f.all, ∀ g ∈ d1 ++ d2, ∀ it' ∈ g.all, it.obj < it'.obj)
    (hlast : ((d1 ++ d2).flatMap Fin'.all).Pairwise LastBefore)
    (hok : ∀ l x y r, logE = l ++ x :: y :: r → x.out = .ok) : Cov (fs ++ (d1 ++ d2)) (log0 ++ logE) (ls ++ d1) := by
  intro p hp hpo it' hit' hl1 f hf it hit ho
  rw [zip_append_eq hl] at hp ⊢
  rw [List.mem_append] at hp
  rw [List.mem_append (s := fs)] at hf
  rcases hp with hp | hp
  · rcases hf with hf | hf
    · obtain ⟨e, h1, h2⟩ := h p hp hpo it' hit' hl1 f hf it hit ho
      exact ⟨e, by rw [List.mem_append]; exact .inl h1, h2⟩
    · have := hs p.2 (hsub.subset (List.of_mem_zip hp).2) it' hit' f hf it hit
      omega
  · rcases hf with hf | hf
    · have := hs f hf it hit p.2 (by rw [List.mem_append]; exact .inl (List.of_mem_zip hp).2) it' hit'
      omega
    · -- both in the new epoch
      obtain ⟨j, hj, hpj⟩ := List.getElem_of_mem hp
      rw [List.getElem_zip] at hpj
      simp only [List.length_zip] at hj
      obtain ⟨i, hi, hfi⟩ := List.getElem_of_mem hf
      have key : ∀ i (hi : i < (d1 ++ d2).length), j < i → it ∈ (d1 ++ d2)[i].all → False := by
        intro i hi hji hiti
        have hpw : (d1 ++ d2).Pairwise fun f g => ∀ a ∈ f.all, ∀ b ∈ g.all, LastBefore a b := by
          rw [List.flatMap_def, List.pairwise_flatten] at hlast
          exact List.pairwise_map.1 hlast.2
        rw [List.pairwise_iff_getElem] at hpw
        have h1 := hpw j i (by omega) hi hji it' (by
          rw [List.getElem_append_left (by omega)]
          rw [← hpj] at hit'
          exact hit') it hiti
        exact h1 hl1 ho.symm
      by_cases hi1 : i < d1.length
      · have hfi' : d1[i] = f := by rw [← hfi, List.getElem_append_left hi1]
        refine ⟨logE[i]'(by omega), ?_, ?_⟩
        · rw [List.mem_append]
          right
          rw [List.mem_iff_getElem]
          exact ⟨i, by simp only [List.length_zip]; omega, by rw [List.getElem_zip, hfi']⟩
        · by_cases hij : i < j
          · refine hok (logE.take i) _ (logE[i + 1]'(by omega)) (logE.drop (i + 2)) ?_
            rw [List.getElem_cons_drop, List.getElem_cons_drop, List.take_append_drop]
          · by_cases hij' : i = j
            · subst hij'
              rw [← hpj] at hpo; exact hpo
            · exact (key i hi (by omega) (by rw [hfi]; exact hit)).elim
      · exact (key i hi (by omega) (by rw [hfi]; exact hit)).elim

/-- The client over `linkT`: `fs` packets of earlier epochs, `ls` those of them with an entry in the log `log0`. -/
structure LInv (c : Cfg) (pre : List Rx) (s : St (Link ρ)) (fs ls : List Fin') (log0 : List Rx) (G : Gh) : Prop where
  ri : RI c (LP c ⟨fs.map (Fin'.buf c), log0, pre⟩) LF s fs G
  sub : ls.Sublist fs
  bufs : log0.map Rx.buf = ls.map (Fin'.buf c)
  sep : (log0.zip ls).Pairwise SepR
  cov : Cov fs log0 ls

theorem LInv.init (c : Cfg) (e : ρ) (sched : List (Nat × Nat)) :
    LInv c [] (St.init (Link.init e sched)) [] [] [] ⟨[], [], none, 0⟩ := by
  refine ⟨RI.init c _ _ _ ?_ rfl, List.Sublist.refl _, rfl, by simp, by simp [Cov]⟩
  exact ⟨⟨rfl, trivial, List.prefix_refl _⟩, [], rfl, rfl, by simp, by simp [Link.init]⟩

/-- Keep the present log in mind. -/
theorem LInv.mark {pre : List Rx} {s : St (Link ρ)} {fs ls : List Fin'} {log0 : List Rx} {G : Gh}
    (h : LInv c pre s fs ls log0 G) : LInv c s.tr.log s fs ls log0 G := by
  obtain ⟨⟨⟨⟨a1, a2, a3, a4, a5, a6, a7, a8, a9, a10⟩, a11, a12⟩, b1, b2, b3, b4, b5, b6⟩, h2, h3, h4, h5⟩ := h
  obtain ⟨⟨p1, p2, p3⟩, p4⟩ := a10
  exact ⟨⟨⟨⟨a1, a2, a3, a4, a5, a6, a7, a8, a9, ⟨⟨p1, p2, List.prefix_refl _⟩, p4⟩⟩, a11, a12⟩, b1, b2, b3, b4, b5, b6⟩, h2, h3, h4, h5⟩

/-- The log of the current epoch, and the packets that go with it and with the queue. -/
theorem LInv.log {pre : List Rx} {s : St (Link ρ)} {fs ls : List Fin'} {log0 : List Rx} {G : Gh}
    (h : LInv c pre s fs ls log0 G) : ∃ logE d1 d2, s.tr.log = log0 ++ logE ∧ G.done = d1 ++ d2 ∧
      logE.map Rx.buf = d1.map (Fin'.buf c) ∧ s.tr.pending = d2.map (Fin'.buf c) ∧ (∀ e ∈ logE, e.out = .ok) ∧ pre <+: s.tr.log := by
  obtain ⟨⟨p1, p2, p3⟩, logE, p4, p5, p6, p7⟩ := h.ri.rep.inv
  have hh := h.ri.rep.hist
  rw [p5, h.ri.base] at hh
  have hh := List.append_cancel_left hh
  obtain ⟨d1, d2, q1, q2, q3⟩ := List.append_eq_map_iff.1 hh
  exact ⟨logE, d1, d2, p4, q1, q2.symm, q3.symm, p6, p3⟩

theorem sublist_flatMap {α β : Type} {f : α → List β} {a b : List α} (h : a.Sublist b) : (a.flatMap f).Sublist (b.flatMap f) := by
  induction h with
  | slnil => exact List.Sublist.refl _
  | cons x _ ih => rw [List.flatMap_cons]; exact ih.trans (List.sublist_append_right _ _)
  | cons_cons x _ ih => rw [List.flatMap_cons, List.flatMap_cons]; exact List.Sublist.append (List.Sublist.refl _) ih

theorem pairwise_sep_append {log0 logE : List Rx} {ls d : List Fin'} (hl : log0.length = ls.length)
    (h : (log0.zip ls).Pairwise SepR) (hE : (logE.zip d).Pairwise SepR)
    (hs : ∀ f ∈ ls, ∀ it ∈ f.all, ∀ g ∈ d, ∀ it' ∈ g.all, it.obj < it'.obj) :
    ((log0 ++ logE).zip (ls ++ d)).Pairwise SepR := by
  rw [zip_append_eq hl, List.pairwise_append]
  refine ⟨h, hE, ?_⟩
  intro a ha b hb _ it hit it' hit'
  exact hs a.2 (List.of_mem_zip ha).2 it hit b.2 (List.of_mem_zip hb).2 it' hit'

/-- Everything about the log of a reachable state. -/
theorem LInv.desc {pre : List Rx} {s : St (Link ρ)} {fs ls : List Fin'} {log0 : List Rx} {G : Gh}
    (h : LInv c pre s fs ls log0 G) : ∃ ls', LogDesc c s.tr.log ls' ∧ (s.tr.log.zip ls').Pairwise SepR ∧
      ls'.Sublist (fs ++ G.done) ∧ Cov (fs ++ G.done) s.tr.log ls' := by
  obtain ⟨logE, d1, d2, q1, q2, q3, q4, q5, q6⟩ := h.log
  have hsub : (ls ++ d1).Sublist (fs ++ G.done) := by
    rw [q2]; exact h.sub.append (List.sublist_append_left _ _)
  have hnd := h.ri.nodupAll
  have hla := h.ri.lastAll
  have hall : ((fs ++ G.done).flatMap Fin'.all).Sublist (allItems fs G) := by
    unfold allItems Gh.all
    rw [List.flatMap_append, ← List.append_assoc]
    exact List.sublist_append_left _ _
  refine ⟨ls ++ d1, ⟨?_, ?_, ?_, ?_, ?_⟩, ?_, hsub, ?_⟩
  · rw [q1, List.map_append, List.map_append, h.bufs, q3]
  · intro f hf
    have := hsub.subset hf
    rw [List.mem_append] at this
    exact this.elim (h.ri.fin f) (h.ri.rep.doneOK f)
  · exact hnd.sublist (sublist_flatMap ((sublist_flatMap hsub).trans hall))
  · exact hla.sublist ((sublist_flatMap hsub).trans hall)
  · exact h.ri.rep.inv.1.ok
  · rw [q1]
    refine pairwise_sep_append (by simpa using congrArg List.length h.bufs) h.sep ?_ ?_
    · rw [List.pairwise_iff_getElem]
      intro i j hi hj _ hne
      exact absurd (q5 _ (List.of_mem_zip (List.getElem_mem hi)).1) hne
    · intro f hf it hit g hg it' hit'
      refine h.ri.sep f (h.sub.subset hf) it hit it' ?_
      rw [Gh.all, List.mem_append, List.mem_flatMap]
      exact .inl ⟨g, by rw [q2]; simp [hg], hit'⟩
  · rw [q1, q2]
    refine h.cov.extend (by simpa using congrArg List.length h.bufs) (by simpa using congrArg List.length q3) h.sub ?_ ?_ ?_
    · intro f hf it hit g hg it' hit'
      refine h.ri.sep f hf it hit it' ?_
      rw [Gh.all, List.mem_append, List.mem_flatMap]
      exact .inl ⟨g, by rw [q2]; exact hg, hit'⟩
    · rw [← q2]
      have := h.ri.rep.last
      rw [Gh.all, List.pairwise_append] at this
      exact this.1
    · rintro l x y r rfl
      exact q5 x (by simp)

/-- The outcome of one call over `linkT`. -/
inductive LStep (c : Cfg) (pre : List Rx) (op : Op) (s : St (Link ρ)) (fs ls : List Fin') (log0 : List Rx) (G : Gh) :
    Out (St (Link ρ)) (Option Handle) → Prop
  | ok (h : Option Handle) (s' : St (Link ρ)) (G' : Gh) (its : List Item) (obj : Nat) (inv : LInv c pre s' fs ls log0 G')
      (ext : Ext G G' s.nObj its) (mono : s.nObj ≤ s'.nObj)
      (real : Realises c.ver op (its.map Item.txn)) (hok : HandleOK op obj h)
      (tiles : op ≠ .dispatch → Tiles obj 0 0 its ∧ s.nObj ≤ obj) (disp : op = .dispatch → its = [] ∧ G'.cur = none) :
      LStep c pre op s fs ls log0 G (.ok h s')
  | arg (e : Exc) (s' : St (Link ρ)) (G' : Gh) (inv : LInv c pre s' fs ls log0 G') (hitems : user G'.items = user G.items)
      (hop : (∃ a d m, op = .writeMasked a d m ∧ e = .bitsForbidden ∧ maskedArg c.wrapNeg d m = .forbidden ∧ s' = s) ∨
        ∃ a m, op = .readConfig a m ∧ c.ver = .v1 ∧ e = .headerType) :
      LStep c pre op s fs ls log0 G (.exc e s')
  | failed (e : Exc) (s' : St (Link ρ)) (fs' ls' : List Fin') (log1 : List Rx)
      (inv : LInv c pre s' fs' ls' log1 ⟨s'.hist, [], none, 0⟩) (he : e ≠ .bitsForbidden)
      (hlog : ∃ logE, log1 = log0 ++ logE ∧ ((∃ l x, logE = l ++ [x] ∧ (∀ y ∈ l, y.out = .ok) ∧ x.out = .err e) ∨
        ((∀ y ∈ logE, y.out = .ok) ∧ e = .transport 0))) :
      LStep c pre op s fs ls log0 G (.exc e s')

theorem lstep (hw : WF c) (hcap : CapOK c) (hr : c.ver = .v2 → Roomy c) {pre : List Rx} {s : St (Link ρ)} {fs ls : List Fin'}
    {log0 : List Rx} {G : Gh} (h : LInv c pre s fs ls log0 G) (op : Op) (hop : op.ok c) :
    LStep c pre op s fs ls log0 G (op.run c (linkT c resp) s) := by
  have hs := step hw (link_TOK (resp := resp) hw hcap hr ⟨fs.map (Fin'.buf c), log0, pre⟩) h.ri.rep op hop
  generalize op.run c (linkT c resp) s = r at hs ⊢
  cases hs with
  | ok h' s' G' its obj rep ext mono real hok tiles disp =>
    exact .ok h' s' G' its obj ⟨h.ri.extend rep ext.base ext.all mono, h.sub, h.bufs, h.sep, h.cov⟩ ext mono real hok tiles disp
  | forbidden a d m hop hf => exact .arg _ s G h rfl (.inl ⟨a, d, m, hop, rfl, hf, rfl⟩)
  | refused a m s' G' hop hv rep ext mono =>
    refine .arg _ s' { G' with n := G'.n + 1 } ⟨h.ri.extend rep ext.base ext.all mono, h.sub, h.bufs, h.sep, h.cov⟩ ?_
      (.inr ⟨a, m, hop, hv, rfl⟩)
    have := ext.user
    rw [List.append_nil] at this
    exact this
  | failed e s' us fail real =>
    obtain ⟨t, ht, ⟨⟨p1, p2, p3⟩, he, logE, rest, p4, p5, p6⟩⟩ := fail.tr
    obtain ⟨fs', hR', hsep0, _⟩ := h.ri.failed
      (P' := LP c ⟨s'.hist, log0 ++ logE, pre⟩) fail
      (by
        rw [ht]
        exact ⟨⟨p1, p2, p3⟩, [], by rw [List.append_nil]; exact p4, by simp [linkT], by simp, by simp [linkT]⟩)
      (by rw [ht]; rfl)
    have hhist : s'.hist = (fs ++ fs').map (Fin'.buf c) := hR'.base
    have hd : ∃ d1 d2, fs' = d1 ++ d2 ∧ logE.map Rx.buf = d1.map (Fin'.buf c) := by
      rw [hhist, List.map_append] at p5
      have := List.append_cancel_left p5
      obtain ⟨d1, d2, q1, q2, q3⟩ := List.map_eq_append_iff.1 this
      exact ⟨d1, d2, q1, q2.symm⟩
    obtain ⟨d1, d2, q1, q2⟩ := hd
    have hl : log0.length = ls.length := by simpa using congrArg List.length h.bufs
    have hsep : ∀ f ∈ fs, ∀ it ∈ f.all, ∀ g ∈ fs', ∀ it' ∈ g.all, it.obj < it'.obj := by
      intro f hf it hit g hg it' hit'
      exact hsep0 it (List.mem_flatMap.2 ⟨f, hf, hit⟩) it' (List.mem_flatMap.2 ⟨g, hg, hit'⟩)
    refine .failed e s' (fs ++ fs') (ls ++ d1) (log0 ++ logE) ⟨?_, ?_, ?_, ?_, ?_⟩ he ⟨logE, rfl, ?_⟩
    · rw [← hhist]; exact hR'
    · rw [q1]; exact h.sub.append (List.sublist_append_left _ _)
    · rw [List.map_append, List.map_append, h.bufs, q2]
    · refine pairwise_sep_append hl h.sep ?_ ?_
      · rcases p6 with ⟨l, x, rfl, hl1, hx⟩ | ⟨hl1, _⟩
        · have hdl : (l ++ [x]).length = d1.length := by simpa using congrArg List.length q2
          rw [List.pairwise_iff_getElem]
          intro i j hi hj hij hne
          exfalso; apply hne
          simp only [List.length_zip] at hi hj
          rw [List.getElem_zip]
          simp only [List.length_append, List.length_singleton] at hi hj
          rw [List.getElem_append_left (by omega)]
          exact hl1 _ (List.getElem_mem _)
        · rw [List.pairwise_iff_getElem]
          intro i j hi hj _ hne
          exact absurd (hl1 _ (List.of_mem_zip (List.getElem_mem hi)).1) hne
      · intro f hf it hit g hg it' hit'
        exact hsep f (h.sub.subset hf) it hit g (by rw [q1]; simp [hg]) it' hit'
    · have hdl : logE.length = d1.length := by simpa using congrArg List.length q2
      have := h.cov.extend (d2 := d2) hl hdl h.sub (by rw [← q1]; exact hsep) ?_ ?_
      · rw [← q1] at this; exact this
      · rw [← q1]
        have := hR'.last
        rw [List.flatMap_append, List.pairwise_append] at this
        exact this.2.1
      · rintro l x y r rfl
        rcases p6 with ⟨l', z, hz, hl1, _⟩ | ⟨hl1, _⟩
        · apply hl1
          have hz' := congrArg List.dropLast hz
          rw [List.dropLast_concat] at hz'
          rw [← hz', show l ++ x :: y :: r = (l ++ [x]) ++ (y :: r) by simp, List.dropLast_append_of_ne_nil (by simp)]
          simp
        · exact hl1 x (by simp)
    · rcases p6 with h6 | ⟨h6, h7, _⟩
      · exact .inl h6
      · exact .inr ⟨h6, h7⟩

end
end Verif
