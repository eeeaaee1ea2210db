import Verif.Lemmas.Run
/-! Reachable client states, and what their packets parse to. -/

set_option autoImplicit false
set_option linter.unusedSimpArgs false

namespace Verif
open Spec

section
variable {τ : Type} {c : Cfg} {T : Transport τ} {P : List Buf → τ → Prop} {F : τ → Prop} {Pe : List Buf → Exc → τ → Prop}

/-- The client state is described by the finished packets `fs` of earlier epochs and the ghost `G` of the
current one. -/
structure RI (c : Cfg) (P : List Buf → τ → Prop) (F : τ → Prop) (s : St τ) (fs : List Fin') (G : Gh) : Prop where
  rep : Rep c P F s G
  base : G.base = fs.map (Fin'.buf c)
  fin : ∀ f ∈ fs, FinOK c f
  objs : ∀ f ∈ fs, ∀ it ∈ f.all, it.obj < s.nObj
  sep : ∀ f ∈ fs, ∀ it ∈ f.all, ∀ it' ∈ G.all, it.obj < it'.obj
  nodup : ((fs.flatMap Fin'.all).flatMap itemLocs).Nodup
  last : (fs.flatMap Fin'.all).Pairwise LastBefore

/-- Two groups of items, the second with later objects. -/
theorem nodup_append_sep {l l' : List Item} (h : (l.flatMap itemLocs).Nodup) (h' : (l'.flatMap itemLocs).Nodup)
    (hs : ∀ it ∈ l, ∀ it' ∈ l', it.obj < it'.obj) : ((l ++ l').flatMap itemLocs).Nodup := by
  rw [List.flatMap_append, List.nodup_append]
  refine ⟨h, h', ?_⟩
  intro x hx y hy hxy
  subst hxy
  rw [List.mem_flatMap] at hx hy
  obtain ⟨a, ha, ha'⟩ := hx
  obtain ⟨b, hb, hb'⟩ := hy
  have := hs a ha b hb
  have := itemLocs_disj ha' hb'
  omega

/-- See `nodup_append_sep`. -/
theorem last_append_sep {l l' : List Item} (h : l.Pairwise LastBefore) (h' : l'.Pairwise LastBefore)
    (hs : ∀ it ∈ l, ∀ it' ∈ l', it.obj < it'.obj) : (l ++ l').Pairwise LastBefore := by
  rw [List.pairwise_append]
  refine ⟨h, h', ?_⟩
  intro a ha b hb _
  exact Nat.ne_of_lt (hs a ha b hb)

/-- All items ever put into a packet. -/
def allItems (fs : List Fin') (G : Gh) : List Item := fs.flatMap Fin'.all ++ G.all

theorem RI.nodupAll {s : St τ} {fs : List Fin'} {G : Gh} (h : RI c P F s fs G) :
    ((allItems fs G).flatMap itemLocs).Nodup := by
  refine nodup_append_sep h.nodup h.rep.nodup ?_
  intro it hit it' hit'
  obtain ⟨f, hf, hit⟩ := List.mem_flatMap.1 hit
  exact h.sep f hf it hit it' hit'

theorem RI.lastAll {s : St τ} {fs : List Fin'} {G : Gh} (h : RI c P F s fs G) :
    (allItems fs G).Pairwise LastBefore := by
  refine last_append_sep h.last h.rep.last ?_
  intro it hit it' hit'
  obtain ⟨f, hf, hit⟩ := List.mem_flatMap.1 hit
  exact h.sep f hf it hit it' hit'

theorem RI.init (c : Cfg) (P : List Buf → τ → Prop) (F : τ → Prop) (t : τ) (h : P [] t) (hF : F t) : RI c P F (St.init t) [] ⟨[], [], none, 0⟩ := by
  refine ⟨⟨⟨rfl, rfl, rfl, by simp, by simp, by simp [Gh.all], by simp [Gh.all], by simp [Gh.all], by simp [Gh.ks], h⟩, by simp, fun _ => hF⟩, rfl, by simp, by simp,
    by simp, by simp, by simp⟩

/-- Words and parse of a packet under construction. -/
theorem mkBuf_ipbus (c : Cfg) (k : Nat) (its : List Item) :
    ipbusPart c.hub (mkBuf c ⟨k, its⟩).send = (match c.ver with
      | .v1 => []
      | .v2 => [0x200000F0#32]) ++ its.flatMap (enc c.ver) := by
  unfold ipbusPart mkBuf preSend
  cases c.hub <;> cases c.ver <;> simp

theorem patch_ipbus (c : Cfg) (b : Buf) : ipbusPart c.hub (patch c b).send = ipbusPart c.hub b.send := by
  unfold patch ipbusPart
  cases c.hub with
  | none => rfl
  | some p => simp [List.drop_set]

theorem parse_items (c : Cfg) (k : Nat) (its : List Item) (h : ∀ it ∈ its, txLegal c.ver it.txn) :
    parsePacket c.ver (ipbusPart c.hub (mkBuf c ⟨k, its⟩).send) =
      some (0, its.map fun it => (it.cnt % 2 ^ idBits c.ver, it.txn)) := by
  rw [mkBuf_ipbus]
  cases hv : c.ver with
  | v1 =>
    rw [hv] at h
    simp only [parsePacket, List.nil_append]
    rw [parseTxns_enc its h _ (length_le_flatMap_enc _ _)]; rfl
  | v2 =>
    rw [hv] at h
    simp only [parsePacket, List.cons_append, List.nil_append]
    rw [if_pos (by decide), parseTxns_enc its h _ (length_le_flatMap_enc _ _)]
    simp only [Option.map_some, Option.some.injEq, Prod.mk.injEq, and_true]
    decide

theorem fin_legal {f : Fin'} (h : FinOK c f) : ∀ it ∈ f.all, txLegal c.ver it.txn := by
  intro it hit
  rw [Fin'.all, List.mem_append] at hit
  rcases hit with hit | hit
  · exact h.grp.legal it hit
  · have hb := (padItems_obj hit).2.2
    have hnp := h.np
    cases hv : c.ver with
    | v1 => rw [hb]; exact ⟨by simp [supported, txTy], by simp [txWC, wcBits]⟩
    | v2 =>
      simp [padCount, hv] at hnp
      rw [hnp] at hit; simp [padItems] at hit

theorem parse_fin {f : Fin'} (h : FinOK c f) :
    parsePacket c.ver (ipbusPart c.hub (f.buf c).send) =
      some (0, f.all.map fun it => (it.cnt % 2 ^ idBits c.ver, it.txn)) := by
  unfold Fin'.buf
  rw [patch_ipbus, parse_items c _ _ (fin_legal h)]

/-- Item lists of all packets of a state. -/
def pktItems (fs : List Fin') (G : Gh) : List (List Item) :=
  (fs ++ G.done).map Fin'.all ++ (G.cur.map Grp.items).toList

theorem RI.parse {s : St τ} {fs : List Fin'} {G : Gh} (h : RI c P F s fs G) :
    parsePackets c.ver c.hub (wire s) =
      some ((pktItems fs G).map (List.map fun it => (it.cnt % 2 ^ idBits c.ver, it.txn))) := by
  have hfin : ∀ l : List Fin', (∀ f ∈ l, FinOK c f) → parsePackets c.ver c.hub ((l.map (Fin'.buf c)).map Buf.send) =
      some ((l.map Fin'.all).map (List.map fun it => (it.cnt % 2 ^ idBits c.ver, it.txn))) := by
    intro l hl
    induction l with
    | nil => rfl
    | cons f l ih =>
      unfold parsePackets at ih ⊢
      simp only [List.map_cons, List.mapM_cons, parse_fin (hl f (by simp)), Option.map_some, Option.pure_def,
        Option.bind_eq_bind, Option.bind_some]
      rw [ih (fun f hf => hl f (by simp [hf]))]
      rfl
  have hall : ∀ f ∈ fs ++ G.done, FinOK c f := by
    intro f hf
    rw [List.mem_append] at hf
    rcases hf with hf | hf
    · exact h.fin f hf
    · exact h.rep.doneOK f hf
  have hw : wire s = ((fs ++ G.done).map (Fin'.buf c)).map Buf.send ++ ((G.cur.map (mkBuf c)).toList).map Buf.send := by
    unfold wire; rw [h.rep.hist, h.rep.cur, h.base]; simp
  have h1 := hfin _ hall
  rw [hw]
  unfold pktItems
  generalize fs ++ G.done = l at h1
  cases hc : G.cur with
  | none => simpa using h1
  | some g =>
    have hg := parse_items c g.k g.items (h.rep.curOK g hc).legal
    unfold parsePackets at h1 ⊢
    simp only [Option.map_some, Option.toList_some, List.map_cons, List.map_nil, List.mapM_append, h1,
      List.mapM_cons, List.mapM_nil, hg, Option.pure_def, Option.bind_eq_bind, Option.bind_some, List.map_append]

theorem realTxns_items (v : Ver) (l : List (List Item)) :
    realTxns (l.map (List.map fun it => (it.cnt % 2 ^ idBits v, it.txn))) = (user l.flatten).map Item.txn := by
  unfold realTxns user
  rw [← List.map_flatten, List.filterMap_map]
  induction l.flatten with
  | nil => rfl
  | cons it its ih =>
    simp only [List.filterMap_cons, Function.comp]
    by_cases h : it.txn = .bot
    · simp only [h, if_true, ne_eq, not_true_eq_false, decide_false, Bool.false_eq_true, not_false_eq_true,
        List.filter_cons_of_neg]
      exact ih
    · rw [List.filter_cons_of_pos (by simp [h])]
      simp only [h, if_false, List.map_cons]
      rw [← ih]

theorem user_padItems (o n : Nat) : user (padItems o n) = [] := user_bots fun _ h => (padItems_obj h).2.2

theorem user_flatten_all (l : List Fin') : user (l.map Fin'.all).flatten = user (l.flatMap fun f => f.g.items) := by
  induction l with
  | nil => rfl
  | cons f l ih =>
    simp only [List.map_cons, List.flatten_cons, user_append, List.flatMap_cons, ih, Fin'.all, user_padItems,
      List.append_nil]

theorem user_pktItems (fs : List Fin') (G : Gh) :
    user (pktItems fs G).flatten = user (fs.flatMap fun f => f.g.items) ++ user G.items := by
  unfold pktItems Gh.items
  rw [List.flatten_append, user_append, user_flatten_all, List.flatMap_append, user_append, user_append,
    List.append_assoc]
  cases G.cur <;> simp

/-- The transactions of a state, as an independent parser sees them. -/
theorem RI.txns {s : St τ} {fs : List Fin'} {G : Gh} (h : RI c P F s fs G) :
    ∃ pk, parsePackets c.ver c.hub (wire s) = some pk ∧
      realTxns pk = (user (fs.flatMap fun f => f.g.items) ++ user G.items).map Item.txn :=
  ⟨_, h.parse, by rw [realTxns_items, user_pktItems]⟩

/-- The failed epoch joins the earlier ones; the new one is empty. -/
theorem RI.failed {P' : List Buf → τ → Prop} {s s' : St τ} {fs : List Fin'} {G : Gh} {us : List Item} {e : Exc}
    (h : RI c P F s fs G) (hF : Failed c T Pe G us s.nObj e s s') (hP : P' s'.hist s'.tr)
    (hfl : F s'.tr) :
    ∃ fs', RI c P' F s' (fs ++ fs') ⟨s'.hist, [], none, 0⟩ ∧
      (∀ it ∈ fs.flatMap Fin'.all, ∀ it' ∈ fs'.flatMap Fin'.all, it.obj < it'.obj) ∧
      ((fs ++ fs').flatMap fun f => f.g.items) = (fs.flatMap fun f => f.g.items) ++
        fs'.flatMap (fun f => f.g.items) ∧
      ∃ new, fs'.flatMap (fun f => f.g.items) = G.items ++ new ∧ user new = us ∧
        new.map Item.cnt = List.range' G.n new.length := by
  obtain ⟨hc, hn, ⟨gs, new, h1, h2, h3, h4, h5, h6, h7, h8⟩, ht, ho⟩ := hF
  have hsep : ∀ it ∈ fs.flatMap Fin'.all, ∀ it' ∈ (G.done ++ gs).flatMap Fin'.all, it.obj < it'.obj := by
    intro it hit it' hit'
    obtain ⟨f, hf, hit⟩ := List.mem_flatMap.1 hit
    rcases h8 it' hit' with h' | h'
    · exact h.sep f hf it hit it' h'
    · exact Nat.lt_of_lt_of_le (h.objs f hf it hit) h'
  refine ⟨G.done ++ gs, ⟨⟨⟨?_, hc, ?_, by simp, by simp, by simp [Gh.all], by simp [Gh.all], by simp [Gh.all],
    by simp [Gh.ks], hP⟩, by simp, fun _ => hfl⟩, ?_, ?_, ?_, by simp [Gh.all], ?_, ?_⟩, hsep, by simp, new, h3, h4, h5⟩
  · simp
  · rw [hn]; rfl
  · show s'.hist = _
    rw [h1, h.base]; simp
  · intro f hf
    simp only [List.mem_append] at hf
    rcases hf with hf | hf | hf
    · exact h.fin f hf
    · exact h.rep.doneOK f hf
    · exact (h2 f hf).1
  · intro f hf it hit
    simp only [List.mem_append] at hf
    rcases hf with hf | hf | hf
    · exact Nat.lt_of_lt_of_le (h.objs f hf it hit) ho
    · refine Nat.lt_of_lt_of_le (h.rep.objs it ?_) ho
      rw [Gh.all, List.mem_append, List.mem_flatMap]; exact .inl ⟨f, hf, hit⟩
    · exact (h2 f hf).2 it hit
  · rw [List.flatMap_append]; exact nodup_append_sep h.nodup h6 hsep
  · rw [List.flatMap_append]; exact last_append_sep h.last h7 hsep

theorem RI.extend {s s' : St τ} {fs : List Fin'} {G G' : Gh} (h : RI c P F s fs G)
    (hR : Rep c P F s' G') (hb : G'.base = G.base) (ha : ∀ it ∈ G'.all, it ∈ G.all ∨ s.nObj ≤ it.obj)
    (hm : s.nObj ≤ s'.nObj) : RI c P F s' fs G' := by
  refine ⟨hR, by rw [hb, h.base], h.fin, fun f hf it hit => Nat.lt_of_lt_of_le (h.objs f hf it hit) hm, ?_,
    h.nodup, h.last⟩
  intro f hf it hit it' hit'
  rcases ha it' hit' with h' | h'
  · exact h.sep f hf it hit it' h'
  · exact Nat.lt_of_lt_of_le (h.objs f hf it hit) h'

theorem Ext.user {G G' : Gh} {us : List Item} {o : Nat} (hE : Ext G G' o us) : user G'.items = user G.items ++ us := by
  obtain ⟨new, h1, h2, _⟩ := hE.items
  rw [h1, user_append, h2]

theorem TOK_of_total (hT : T.Total) : TOK c T (fun _ _ => True) (fun _ => True) (fun _ e _ => e ≠ .bitsForbidden) := by
  constructor
  · intro h t f _ _
    rcases hT.disp t (f.buf c) with ⟨t', h⟩ | ⟨e, t', h, he⟩ <;> rw [h]
    · trivial
    · exact he
  · intro h t _
    rcases hT.flush t with ⟨t', h⟩ | ⟨e, t', h, he⟩ <;> rw [h]
    · exact ⟨trivial, trivial⟩
    · exact he


/-- Reachable states: there is a ghost description. -/
def Inv (c : Cfg) (s : St τ) : Prop := ∃ fs G, RI c (fun _ _ => True) (fun _ => True) s fs G

theorem Inv.init (c : Cfg) (t : τ) : Inv c (St.init t) := ⟨[], _, RI.init c _ _ t trivial trivial⟩

/-- The transactions on the wire so far. -/
def Sent (c : Cfg) (s : St τ) (l : List Txn) : Prop :=
  ∃ pk, parsePackets c.ver c.hub (wire s) = some pk ∧ realTxns pk = l

theorem Sent.unique {s : St τ} {l l' : List Txn} (h : Sent c s l) (h' : Sent c s l') : l = l' := by
  obtain ⟨pk, h1, h2⟩ := h
  obtain ⟨pk', h3, h4⟩ := h'
  rw [h1] at h3; cases h3; rw [← h2, ← h4]

/-- One call on a reachable state: defined, reachable again, and the wire grows by (part of) the call. -/
theorem inv_step (hw : WF c) (hT : T.Total) {s : St τ} (hI : Inv c s) (op : Op) (hop : op.ok c) :
    ∃ l0, Sent c s l0 ∧
    ((∃ h s' p, op.run c T s = .ok h s' ∧ Inv c s' ∧ Sent c s' (l0 ++ p) ∧ Realises c.ver op p) ∨
     (∃ e s' p, op.run c T s = .exc e s' ∧ Inv c s' ∧ Sent c s' (l0 ++ p) ∧ RealisesPart op p)) := by
  obtain ⟨fs, G, hR⟩ := hI
  refine ⟨_, hR.txns, ?_⟩
  have hs := step hw (TOK_of_total hT) hR.rep op hop
  generalize op.run c T s = r at hs ⊢
  cases hs with
  | ok h s' G' its obj rep ext mono real hok tiles disp =>
    left
    have hR' := hR.extend rep ext.base ext.all mono
    refine ⟨h, s', its.map Item.txn, rfl, ⟨_, _, hR'⟩, ?_, real⟩
    have := hR'.txns
    rw [ext.user, ← List.append_assoc, List.map_append] at this
    exact this
  | forbidden a d m hop hf =>
    right
    refine ⟨_, s, [], rfl, ⟨_, _, hR⟩, ?_, by subst hop; rfl⟩
    rw [List.append_nil]; exact hR.txns
  | refused a m s' G' hop hv rep ext mono =>
    right
    have ext' : Ext G { G' with n := G'.n } s.nObj [] := ext
    have hR' : RI c (fun _ _ => True) (fun _ => True) s' fs { G' with n := G'.n + 1 } :=
      hR.extend rep ext.base ext.all mono
    refine ⟨_, s', [], rfl, ⟨_, _, hR'⟩, ?_, by subst hop; rfl⟩
    have := hR'.txns
    have hu : Verif.user ({ G' with n := G'.n + 1 } : Gh).items = user G.items := by
      have := ext.user
      rw [List.append_nil] at this
      exact this
    rw [hu] at this
    rw [List.append_nil]; exact this
  | failed e s' us fail real =>
    right
    obtain ⟨fs', hR', _, h1, new, h2, h3, h4⟩ := hR.failed (P' := fun _ _ => True) fail trivial trivial
    refine ⟨e, s', us.map Item.txn, rfl, ⟨_, _, hR'⟩, ?_, real⟩
    have := hR'.txns
    rw [h1, h2, user_append, user_append, h3] at this
    unfold Sent
    simpa [Gh.items, user] using this

/-- A whole program. -/
theorem inv_run (hw : WF c) (hT : T.Total) (ops : List Op) (hops : ∀ op ∈ ops, op.ok c) {s : St τ} (hI : Inv c s) :
    ∃ rs s' l0 l, runOps c T ops s = some (rs, s') ∧ Inv c s' ∧ Sent c s l0 ∧ Sent c s' (l0 ++ l) ∧
      Accounts c.ver ops rs l := by
  induction ops generalizing s with
  | nil =>
    obtain ⟨fs, G, hR⟩ := hI
    exact ⟨[], s, _, [], rfl, ⟨_, _, hR⟩, hR.txns, by rw [List.append_nil]; exact hR.txns, .nil⟩
  | cons op ops ih =>
    obtain ⟨l0, hl0, h⟩ := inv_step hw hT hI op (hops op (by simp))
    rcases h with ⟨h, s', p, h1, h2, h3, h4⟩ | ⟨e, s', p, h1, h2, h3, h4⟩
    · obtain ⟨rs, s'', l1, l, r1, r2, r3, r4, r5⟩ := ih (fun op hop => hops op (by simp [hop])) h2
      have := r3.unique h3; subst this
      refine ⟨.ok h :: rs, s'', l0, p ++ l, ?_, r2, hl0, ?_, .ok h4 r5⟩
      · simp [runOps, h1, r1]
      · rw [← List.append_assoc]; exact r4
    · obtain ⟨rs, s'', l1, l, r1, r2, r3, r4, r5⟩ := ih (fun op hop => hops op (by simp [hop])) h2
      have := r3.unique h3; subst this
      refine ⟨.exc e :: rs, s'', l0, p ++ l, ?_, r2, hl0, ?_, .exc h4 r5⟩
      · simp [runOps, h1, r1]
      · rw [← List.append_assoc]; exact r4

end
end Verif
