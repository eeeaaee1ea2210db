import Verif.Lemmas.Demo
/-!
# C06 block reads tile their result, C09 transaction ids

For every reachable client state and every transport behaviour (see `Verif.Props.C08`).
-/

set_option autoImplicit false

namespace Verif
open Spec
variable {τ : Type} {c : Cfg} {T : Transport τ}

/-- Every buffer so far, dispatched or still being filled. -/
def bufs (s : St τ) : List Buf := s.hist ++ s.cur.toList

/-- The slices `(offset, words)` of the value of object `obj` that replies will be written to, in order. -/
def slices (obj : Nat) (bs : List Buf) : List (Nat × Nat) :=
  (bs.flatMap Buf.reply).filterMap fun sl =>
    match sl.loc with
    | .data o off => if o = obj then some (off, sl.len) else none
    | _ => none

/-- Number of reply slots before those of the transactions: three for a ControlHub, one for the packet
header of IPbus 2.0. -/
def preSlotCount (c : Cfg) : Nat := (if c.hub.isSome then 3 else 0) + (match c.ver with | .v1 => 0 | .v2 => 1)

/-- The transactions of a packet with the reply slots assigned to them. -/
def paired (c : Cfg) (b : Buf) : Option (List (Txn × Loc × Option Slot)) :=
  match parsePacket c.ver (ipbusPart c.hub b.send) with
  | none => none
  | some (_, l) => assign (l.map Prod.snd) (b.reply.drop (preSlotCount c))

theorem preSlots_length (c : Cfg) (k : Nat) : (preSlots c k).length = preSlotCount c := by
  unfold preSlots preSlotCount; cases c.hub <;> cases c.ver <;> rfl

theorem txData_eq (t : Txn) : dataWords t = txData t := by cases t <;> rfl

/-- Slots of an item as `assign` sees them. -/
def itemSlot (it : Item) : Txn × Loc × Option Slot :=
  (it.txn, .hdr it.obj it.hk, (txData it.txn).map fun n => ⟨.data it.obj it.off, n⟩)

theorem assign_items (its : List Item) : assign (its.map Item.txn) (its.flatMap slots) = some (its.map itemSlot) := by
  induction its with
  | nil => rfl
  | cons it its ih =>
    rw [List.map_cons, List.flatMap_cons]
    cases hd : txData it.txn with
    | none =>
      have : slots it = [⟨.hdr it.obj it.hk, 1⟩] := by simp [slots, hd]
      simp [this, assign, txData_eq, hd, ih, itemSlot]
    | some n =>
      have : slots it = [⟨.hdr it.obj it.hk, 1⟩, ⟨.data it.obj it.off, n⟩] := by simp [slots, hd]
      simp [this, assign, txData_eq, hd, ih, itemSlot]

theorem paired_mkBuf (c : Cfg) (k : Nat) (its : List Item) (h : ∀ it ∈ its, txLegal c.ver it.txn) :
    paired c (mkBuf c ⟨k, its⟩) = some (its.map itemSlot) := by
  unfold paired
  rw [parse_items c k its h]
  have : (mkBuf c ⟨k, its⟩).reply.drop (preSlotCount c) = its.flatMap slots := by
    unfold mkBuf
    rw [← preSlots_length c k]; simp
  rw [this]
  simp only [List.map_map]
  exact assign_items its

theorem patch_reply (c : Cfg) (b : Buf) : (patch c b).reply = b.reply := by unfold patch; cases c.hub <;> rfl

theorem paired_fin (c : Cfg) (f : Fin') (h : FinOK c f) : paired c (f.buf c) = some (f.all.map itemSlot) := by
  rw [← paired_mkBuf c f.g.k f.all (fin_legal h)]
  unfold paired Fin'.buf
  rw [patch_ipbus, patch_reply]

variable {P : List Buf → τ → Prop} {F : τ → Prop}

theorem RI.bufs {s : St τ} {fs : List Fin'} {G : Gh} (h : RI c P F s fs G) :
    bufs s = (fs ++ G.done).map (Fin'.buf c) ++ (G.cur.map (mkBuf c)).toList := by
  unfold Verif.bufs; rw [h.rep.hist, h.rep.cur, h.base]; simp

/-- Every buffer of a reachable state is a list of items with assigned slots. -/
theorem RI.paired {s : St τ} {fs : List Fin'} {G : Gh} (h : RI c P F s fs G) (b : Buf) (hb : b ∈ Verif.bufs s) :
    ∃ its ∈ pktItems fs G, paired c b = some (its.map itemSlot) := by
  rw [h.bufs, List.mem_append, List.mem_map] at hb
  rcases hb with ⟨f, hf, rfl⟩ | hb
  · refine ⟨f.all, ?_, paired_fin c f ?_⟩
    · unfold pktItems; rw [List.mem_append, List.mem_map]; exact .inl ⟨f, hf, rfl⟩
    · rw [List.mem_append] at hf
      exact hf.elim (h.fin f) (h.rep.doneOK f)
  · cases hc : G.cur with
    | none => rw [hc] at hb; simp at hb
    | some g =>
      rw [hc] at hb
      simp only [Option.map_some, Option.toList_some, List.mem_singleton] at hb
      subst hb
      exact ⟨g.items, by simp [pktItems, hc], paired_mkBuf c g.k g.items (h.rep.curOK g hc).legal⟩

/-- Data slice of an item in object `obj`. -/
def itemSlice (obj : Nat) (it : Item) : Option (Nat × Nat) :=
  if it.obj = obj then (txData it.txn).map fun n => (it.off, n) else none

theorem slices_items (obj : Nat) (its : List Item) :
    ((its.flatMap slots).filterMap fun sl =>
      match sl.loc with
      | .data o off => if o = obj then some (off, sl.len) else none
      | _ => none) = its.filterMap (itemSlice obj) := by
  induction its with
  | nil => rfl
  | cons it its ih =>
    rw [List.flatMap_cons, List.filterMap_append, ih]
    unfold slots
    cases hd : txData it.txn with
    | none => simp [itemSlice, hd]
    | some n => by_cases ho : it.obj = obj <;> simp [itemSlice, hd, ho]

theorem slices_buf (obj : Nat) (c : Cfg) (k : Nat) (its : List Item) :
    slices obj [mkBuf c ⟨k, its⟩] = its.filterMap (itemSlice obj) := by
  unfold slices
  simp only [List.flatMap_cons, List.flatMap_nil, List.append_nil]
  show (preSlots c k ++ its.flatMap slots).filterMap _ = _
  rw [List.filterMap_append, slices_items]
  have : (preSlots c k).filterMap (fun sl =>
      match sl.loc with
      | .data o off => if o = obj then some (off, sl.len) else none
      | _ => none) = [] := by
    unfold preSlots; cases c.hub <;> cases c.ver <;> rfl
  rw [this, List.nil_append]

theorem slices_append (obj : Nat) (a b : List Buf) : slices obj (a ++ b) = slices obj a ++ slices obj b := by
  simp [slices]

theorem RI.slices {s : St τ} {fs : List Fin'} {G : Gh} (h : RI c P F s fs G) (obj : Nat) :
    slices obj (Verif.bufs s) = (pktItems fs G).flatten.filterMap (itemSlice obj) := by
  rw [h.bufs]
  unfold pktItems
  generalize fs ++ G.done = l
  rw [slices_append, List.flatten_append, List.filterMap_append]
  congr 1
  · induction l with
    | nil => rfl
    | cons f l ih =>
      rw [List.map_cons, List.map_cons, List.flatten_cons, List.filterMap_append, ← ih,
        ← List.singleton_append, slices_append]
      congr 1
      rw [← slices_buf obj c f.g.k]
      unfold Verif.slices Fin'.buf
      simp only [List.flatMap_cons, List.flatMap_nil, List.append_nil, patch_reply]
  · cases G.cur with
    | none => rfl
    | some g =>
      simp only [Option.map_some, Option.toList_some, List.flatten_cons, List.flatten_nil, List.append_nil]
      exact slices_buf obj c g.k g.items

/-- Slices of `obj` only come from transactions other than byte-order ones. -/
theorem slices_user (obj : Nat) (its : List Item) :
    its.filterMap (itemSlice obj) = (user its).filterMap (itemSlice obj) := by
  induction its with
  | nil => rfl
  | cons it its ih =>
    by_cases h : it.txn = .bot
    · have : user (it :: its) = user its := by simp [user, h]
      rw [this, ← ih, List.filterMap_cons]
      simp [itemSlice, h, txData]
    · have : user (it :: its) = it :: user its := by simp [user, h]
      rw [this, List.filterMap_cons, List.filterMap_cons, ih]

theorem filterMap_none {α β : Type} {f : α → Option β} {l : List α} (h : ∀ a ∈ l, f a = none) : l.filterMap f = [] := by
  rw [List.filterMap_eq_nil_iff]; exact h

theorem tiles_slices {obj : Nat} {inc : Bool} : ∀ (its : List Item) (k off : Nat) (addr : W) (ns : List Nat),
    Tiles obj k off its → its.map Item.txn = rtxns inc addr ns →
    (its.filterMap (itemSlice obj)).flatMap (fun p => List.range' p.1 p.2) = List.range' off ns.sum ∧
    ∀ it ∈ its, it.obj = obj ∧ off ≤ it.off ∧ ∃ n, it.txn = .read inc (if inc then addr + BitVec.ofNat 32 (it.off - off) else addr) n := by
  intro its
  induction its with
  | nil => intro k off addr ns h; exact h.elim
  | cons it its ih =>
    intro k off addr ns h he
    cases ns with
    | nil => simp [rtxns] at he
    | cons n ns =>
      rw [List.map_cons, rtxns] at he
      injection he with he1 he2
      have hd : txData it.txn = some n := by rw [he1]; rfl
      have hit : it.obj = obj ∧ it.off = off := by
        cases its with
        | nil => exact ⟨h.1, h.2.2.1⟩
        | cons _ _ => exact ⟨h.1, h.2.2.1⟩
      have hhead : itemSlice obj it = some (off, n) := by simp [itemSlice, hit.1, hit.2, hd]
      have h1 : it.obj = obj ∧ off ≤ it.off ∧ ∃ n, it.txn = .read inc (if inc then addr + BitVec.ofNat 32 (it.off - off) else addr) n := by
        refine ⟨hit.1, Nat.le_of_eq hit.2.symm, n, ?_⟩
        rw [he1, hit.2, Nat.sub_self]
        simp
      cases its with
      | nil =>
        cases ns with
        | cons _ _ => simp [rtxns] at he2
        | nil =>
          refine ⟨by simp [hhead], ?_⟩
          intro x hx
          simp only [List.mem_singleton] at hx
          subst hx; exact h1
      | cons it2 its =>
        have ht := h.2.2.2.2
        rw [hd] at ht
        obtain ⟨h2, h3⟩ := ih (k + 1) (off + n) _ ns ht he2
        refine ⟨?_, ?_⟩
        · rw [List.filterMap_cons, hhead]
          simp only [List.flatMap_cons, List.sum_cons]
          rw [h2, List.range'_append_1]
        · intro x hx
          rw [List.mem_cons] at hx
          rcases hx with rfl | hx
          · exact h1
          · obtain ⟨a1, a2, m, a3⟩ := h3 x hx
            refine ⟨a1, by omega, m, ?_⟩
            rw [a3]
            cases inc with
            | false => rfl
            | true =>
              simp only [if_true, Txn.read.injEq, and_true, true_and]
              rw [BitVec.add_assoc, ← BitVec.ofNat_add]
              congr 2; omega

/-- C06. A block read that returns: the slices of its result handed to the transport (in all packets
dispatched or being filled) are exactly words 0, 1, ..., n-1, in order, each once; and in every packet the
independent parser pairs each such slice with a read request for exactly that many words (at most the
header's maximum) at the address of the slice's first word. -/
theorem C06_tiles (c : Cfg) (T : Transport τ) (hw : WF c) (hT : T.Total) (s : St τ) (hI : Inv c s)
    (a n : W) (inc : Bool) (hn : n.toNat < 2 ^ 29) (h : Option Handle) (s' : St τ)
    (hrun : (Op.readBlock a n inc).run c T s = .ok h s') :
    ∃ obj, h = some (.vec obj n.toNat) ∧
    (slices obj (bufs s')).flatMap (fun p => List.range' p.1 p.2) = List.range n.toNat ∧
    ∀ b ∈ bufs s', ∃ l, paired c b = some l ∧
      ∀ t hl off len, (t, hl, some ⟨.data obj off, len⟩) ∈ l →
        t = .read inc (if inc then a + BitVec.ofNat 32 off else a) len ∧ len ≤ wcMax c.ver ∧ (n ≠ 0 → len ≠ 0) := by
  obtain ⟨fs, G, hR⟩ := hI
  rcases implementReadBlock_spec hw (TOK_of_total hT) hR.rep a n inc (by omega) with
      ⟨s1, G', its, ns, h1, h2, h3, h4, h5, h6, h7, h8, h9, h10⟩ | ⟨e, s1, us, ns, h1, _⟩
  rotate_left
  · rw [Op.run, M.bind_exc h1] at hrun; cases hrun
  rw [Op.run, M.bind_ok h1, mpure_eq] at hrun
  cases hrun
  have hR' := hR.extend h2 h3.base h3.all h4
  obtain ⟨t1, t2⟩ := tiles_slices its 0 0 a ns h9 h5
  have hfs : ∀ it ∈ fs.flatMap (fun f => f.g.items), itemSlice s.nObj it = none := by
    intro it hit
    rw [List.mem_flatMap] at hit
    obtain ⟨f, hf, hit⟩ := hit
    have := hR.objs f hf it (by simp [Fin'.all, hit])
    unfold itemSlice; rw [if_neg (by omega)]
  have hG : ∀ it ∈ G.items, itemSlice s.nObj it = none := by
    intro it hit
    have : it ∈ G.all := by
      unfold Gh.items at hit
      unfold Gh.all
      rw [List.mem_append, List.mem_flatMap] at hit ⊢
      rcases hit with ⟨f, hf, hit⟩ | hit
      · exact .inl ⟨f, hf, by simp [Fin'.all, hit]⟩
      · exact .inr hit
    have := hR.rep.objs it this
    unfold itemSlice; rw [if_neg (by omega)]
  refine ⟨s.nObj, rfl, ?_, ?_⟩
  · rw [hR'.slices, slices_user, user_pktItems, h3.user, List.filterMap_append, List.filterMap_append,
      ← slices_user, ← slices_user, filterMap_none hfs, filterMap_none hG, List.nil_append, List.nil_append,
      t1, h6, List.range_eq_range']
  · intro b hb
    obtain ⟨its', hits, hp⟩ := hR'.paired b hb
    refine ⟨_, hp, ?_⟩
    intro t hl off len hmem
    rw [List.mem_map] at hmem
    obtain ⟨it, hit, he⟩ := hmem
    unfold itemSlot at he
    injection he with e1 e2
    injection e2 with e2 e3
    rw [Option.map_eq_some_iff] at e3
    obtain ⟨m, hm, e4⟩ := e3
    injection e4 with e4 e5
    injection e4 with e4 e6
    -- the item is one of the new ones
    have hne : it.txn ≠ .bot := by intro h0; rw [h0] at hm; simp [txData] at hm
    have hin : it ∈ its := by
      have : it ∈ user (pktItems fs G').flatten := by
        unfold user
        rw [List.mem_filter, List.mem_flatten]
        exact ⟨⟨its', hits, hit⟩, by simpa using hne⟩
      rw [user_pktItems, h3.user] at this
      simp only [user, List.mem_append, List.mem_filter] at this
      rcases this with h | h | h
      · have := hfs it h.1; simp [itemSlice, e4, hm] at this
      · have := hG it h.1; simp [itemSlice, e4, hm] at this
      · exact h
    obtain ⟨_, _, m', a3⟩ := t2 it hin
    have hm' : m' = m := by rw [a3] at hm; simpa [txData] using hm
    rw [← e1, a3, Nat.sub_zero, e6, hm', e5]
    refine ⟨rfl, ?_⟩
    have hmem : it.txn ∈ rtxns inc a ns := by rw [← h5]; exact List.mem_map_of_mem hin
    obtain ⟨a', k, hk1, hk2⟩ := rtxns_mem hmem
    rw [a3] at hk1
    injection hk1 with _ _ hk1
    subst hk1
    rw [← e5, ← hm']
    refine ⟨?_, fun h => h7 (by intro h0; exact h (BitVec.eq_of_toNat_eq h0)) m' hk2⟩
    have := h8 m' hk2
    unfold wcMax; omega

/-- The hypotheses of `C06_tiles` are met: from a fresh client a block read returns (nothing has been sent
unless a packet is full), and with `demoTr` a block of 1000 words, i.e. several packets, returns as well. -/
example : ∃ h s', (Op.readBlock 0x1000 1000 true).run (demoCfg .v2) demoTr (St.init []) = .ok h s' := by
  have : (match (Op.readBlock 0x1000 1000 true).run (demoCfg .v2) demoTr (St.init []) with
    | .ok _ s => s.hist.length | _ => 0) = 2 := by decide +kernel
  split at this
  · rename_i h; exact ⟨_, _, h⟩
  · simp at this

/-! ### Transaction ids -/

/-- Every call of the program returned, or was a masked write refused by the argument check. -/
def noFailure (rs : List Res) : Prop := ∀ r ∈ rs, ∀ e, r = .exc e → e = .bitsForbidden

/-- Packets without padding. -/
theorem unpad_fin {f : Fin'} (h : FinOK c f) :
    unpad (f.all.map fun it => (it.cnt % 2 ^ idBits c.ver, it.txn)) =
      f.g.items.map fun it => (it.cnt % 2 ^ idBits c.ver, it.txn) := by
  have hs := h.grp.shape
  have hfilt : ∀ l : List Item, (∀ it ∈ l, it.txn ≠ .bot) →
      (l.map fun it => (it.cnt % 2 ^ idBits c.ver, it.txn)).filter (fun p => decide (p.2 ≠ .bot)) =
        l.map fun it => (it.cnt % 2 ^ idBits c.ver, it.txn) := by
    intro l hl
    rw [List.filter_eq_self]
    intro p hp
    rw [List.mem_map] at hp
    obtain ⟨it, hit, rfl⟩ := hp
    simpa using hl it hit
  have hpad : ∀ o n, ((padItems o n).map fun it => (it.cnt % 2 ^ idBits c.ver, it.txn)).filter (fun p => decide (p.2 ≠ .bot)) = [] := by
    intro o n
    rw [List.filter_eq_nil_iff]
    intro p hp
    rw [List.mem_map] at hp
    obtain ⟨it, hit, rfl⟩ := hp
    simp [(padItems_obj hit).2.2]
  unfold Fin'.all
  unfold GrpShape at hs
  cases hv : c.ver with
  | v1 =>
    rw [hv] at hs hfilt hpad
    obtain ⟨n, o, us, h1, h2⟩ := hs
    rw [h1]
    simp only [List.cons_append, List.map_cons, unpad, List.map_append, List.filter_append]
    rw [hfilt us h2, hpad, List.append_nil]
  | v2 =>
    rw [hv] at hs
    have hnp := h.np
    simp only [padCount, hv] at hnp
    rw [hnp]
    simp only [padItems, List.append_nil]
    cases hi : f.g.items with
    | nil => rfl
    | cons it its =>
      rw [hi] at hs
      simp only [List.map_cons, unpad]
      rw [hv] at hfilt
      rw [hfilt its (fun x hx => hs x (by simp [hx]))]

theorem unpad_grp {g : Grp} (h : GrpOK c g) :
    unpad (g.items.map fun it => (it.cnt % 2 ^ idBits c.ver, it.txn)) =
      g.items.map fun it => (it.cnt % 2 ^ idBits c.ver, it.txn) := by
  have hs := h.shape
  unfold GrpShape at hs
  have hfilt : ∀ l : List Item, (∀ it ∈ l, it.txn ≠ .bot) →
      (l.map fun it => (it.cnt % 2 ^ idBits c.ver, it.txn)).filter (fun p => decide (p.2 ≠ .bot)) =
        l.map fun it => (it.cnt % 2 ^ idBits c.ver, it.txn) := by
    intro l hl
    rw [List.filter_eq_self]
    intro p hp
    rw [List.mem_map] at hp
    obtain ⟨it, hit, rfl⟩ := hp
    simpa using hl it hit
  cases hi : g.items with
  | nil => rfl
  | cons it its =>
    simp only [List.map_cons, unpad]
    rw [hfilt its]
    intro x hx
    cases hv : c.ver with
    | v1 =>
      rw [hv] at hs
      obtain ⟨n, o, us, h1, h2⟩ := hs
      rw [hi] at h1
      injection h1 with _ h1
      rw [h1] at hx; exact h2 x hx
    | v2 =>
      rw [hv] at hs
      exact hs x (by rw [hi]; simp [hx])

/-- Ghost invariant within one epoch: counts are 0, 1, 2, ... -/
theorem ids_run (hw : WF c) (hT : T.Total) (ops : List Op) (hops : ∀ op ∈ ops, op.ok c)
    (hcfg : c.ver = .v2 ∨ ∀ op ∈ ops, ∀ a m, op ≠ .readConfig a m) {s : St τ} {G : Gh}
    (hR : Rep c (fun _ _ => True) (fun _ => True) s G) (hG : G.items.map Item.cnt = List.range' 0 G.n) {rs : List Res} {s' : St τ}
    (hrun : runOps c T ops s = some (rs, s')) (hrs : noFailure rs) :
    ∃ G', Rep c (fun _ _ => True) (fun _ => True) s' G' ∧ G'.base = G.base ∧ G'.items.map Item.cnt = List.range' 0 G'.n := by
  induction ops generalizing s G rs with
  | nil => cases hrun; exact ⟨G, hR, rfl, hG⟩
  | cons op ops ih =>
    have hs := step hw (TOK_of_total hT) hR op (hops op (by simp))
    rw [runOps] at hrun
    generalize op.run c T s = r at hs hrun
    have hops' : ∀ op ∈ ops, op.ok c := fun op hop => hops op (by simp [hop])
    have hcfg' : c.ver = .v2 ∨ ∀ op ∈ ops, ∀ a m, op ≠ .readConfig a m :=
      hcfg.imp id (fun h op hop => h op (by simp [hop]))
    cases hs with
    | ok h s1 G1 its obj rep ext mono real hok tiles disp =>
      simp only [Option.map_eq_some_iff] at hrun
      obtain ⟨p, hp, he⟩ := hrun
      cases he
      obtain ⟨new, n1, n2, n3, n4⟩ := ext.items
      obtain ⟨G', g1, g2, g3⟩ := ih hops' hcfg' rep (by
        rw [n1, List.map_append, hG, n3, n4, ← List.range'_append_1, Nat.zero_add]) hp
        (fun r hr => hrs r (by simp [hr]))
      exact ⟨G', g1, by rw [g2, ext.base], g3⟩
    | forbidden a d m hop hf =>
      simp only [Option.map_eq_some_iff] at hrun
      obtain ⟨p, hp, he⟩ := hrun
      cases he
      exact ih hops' hcfg' hR hG hp (fun r hr => hrs r (by simp [hr]))
    | refused a m s1 G1 hop hv rep ext mono =>
      exfalso
      rcases hcfg with h | h
      · rw [h] at hv; cases hv
      · exact h op (by simp) a m hop
    | failed e s1 us fail real =>
      exfalso
      simp only [Option.map_eq_some_iff] at hrun
      obtain ⟨p, hp, he⟩ := hrun
      cases he
      obtain ⟨t, _, hne⟩ := fail.tr
      exact hne (hrs (.exc e) (by simp) e rfl)

theorem Inv.rebase {s : St τ} (hI : Inv c s) (hcur : s.cur = none) (hctr : s.ctr = 0) :
    ∃ fs, RI c (fun _ _ => True) (fun _ => True) s fs ⟨s.hist, [], none, 0⟩ := by
  obtain ⟨fs, G, hR⟩ := hI
  have hcG : G.cur = none := by
    have := hR.rep.cur
    rw [hcur] at this
    cases h : G.cur with
    | none => rfl
    | some g => rw [h] at this; cases this
  have hall : allItems fs G = (fs ++ G.done).flatMap Fin'.all := by simp [allItems, Gh.all, hcG]
  refine ⟨fs ++ G.done, ⟨⟨⟨by simp, hcur, by rw [hctr]; rfl, by simp, by simp, by simp [Gh.all], by simp [Gh.all],
    by simp [Gh.all], by simp [Gh.ks], trivial⟩, by simp, fun _ => trivial⟩, ?_, ?_, ?_, by simp [Gh.all], ?_, ?_⟩⟩
  · show s.hist = _
    rw [hR.rep.hist, hR.base]; simp
  · intro f hf
    rw [List.mem_append] at hf
    exact hf.elim (hR.fin f) (hR.rep.doneOK f)
  · intro f hf it hit
    rw [List.mem_append] at hf
    rcases hf with hf | hf
    · exact hR.objs f hf it hit
    · refine hR.rep.objs it ?_
      rw [Gh.all, List.mem_append, List.mem_flatMap]; exact .inl ⟨f, hf, hit⟩
  · rw [← hall]; exact hR.nodupAll
  · rw [← hall]; exact hR.lastAll

/-- C09. Start from a fresh client, or any later moment at which no packet is open and the counter has been
reset (as it is after every failed dispatch, `C17_clean`). In every program of calls none of which fails
(IPbus 1.3: without configuration-space reads, see `C09_gap`), the transactions of all packets from then on,
without the padding, carry the ids 0, 1, 2, ... modulo 2^11 (IPbus 1.3) or 2^12 (IPbus 2.0), in order. -/
theorem C09_ids_partial (c : Cfg) (T : Transport τ) (hw : WF c) (hT : T.Total) (s0 : St τ) (hI : Inv c s0)
    (hcur : s0.cur = none) (hctr : s0.ctr = 0) (ops : List Op) (hops : ∀ op ∈ ops, op.ok c)
    (hcfg : c.ver = .v2 ∨ ∀ op ∈ ops, ∀ a m, op ≠ .readConfig a m) (rs : List Res) (s : St τ)
    (hrun : runOps c T ops s0 = some (rs, s)) (hrs : noFailure rs) :
    ∃ pk n, parsePackets c.ver c.hub ((wire s).drop s0.hist.length) = some pk ∧
      (pk.map unpad).flatten.map Prod.fst = (List.range n).map (· % 2 ^ idBits c.ver) := by
  obtain ⟨fs, hR⟩ := hI.rebase hcur hctr
  obtain ⟨G, g1, g2, g3⟩ := ids_run hw hT ops hops hcfg hR.rep (by simp [Gh.items]) hrun hrs
  have h := RI.parse (c := c) (P := fun _ _ => True) (F := fun _ => True) (s := { s with hist := G.done.map (Fin'.buf c) })
      (fs := []) (G := { G with base := [] })
      ⟨⟨⟨by simp, g1.cur, g1.ctr, g1.curOK, g1.doneOK, g1.objs, g1.nodup, g1.last, g1.ks, trivial⟩, g1.ne, fun _ => trivial⟩,
        rfl, by simp, by simp, by simp, by simp, by simp⟩
  have hw : (wire s).drop s0.hist.length = wire { s with hist := G.done.map (Fin'.buf c) } := by
    unfold wire
    rw [g1.hist, g2]
    simp
  refine ⟨_, G.n, by rw [hw]; exact h, ?_⟩
  have hflat : (((pktItems [] ({ G with base := [] } : Gh)).map (List.map fun it => (it.cnt % 2 ^ idBits c.ver, it.txn))).map unpad).flatten
      = G.items.map fun it => (it.cnt % 2 ^ idBits c.ver, it.txn) := by
    unfold pktItems Gh.items
    have hd : ∀ l : List Fin', (∀ f ∈ l, FinOK c f) →
        (((l.map Fin'.all).map (List.map fun it => (it.cnt % 2 ^ idBits c.ver, it.txn))).map unpad).flatten
          = (l.flatMap fun f => f.g.items).map fun it => (it.cnt % 2 ^ idBits c.ver, it.txn) := by
      intro l hl
      induction l with
      | nil => rfl
      | cons f l ih =>
        simp only [List.map_cons, List.flatten_cons, List.flatMap_cons, List.map_append]
        rw [unpad_fin (hl f (by simp)), ← ih (fun f hf => hl f (by simp [hf]))]
    simp only [List.nil_append, List.map_append, List.flatten_append]
    rw [hd _ g1.doneOK]
    congr 1
    cases hc : G.cur with
    | none => rfl
    | some g =>
      simp only [Option.map_some, Option.toList_some, List.map_cons, List.map_nil, List.flatten_cons, List.flatten_nil,
        List.append_nil, Option.getD_some]
      exact unpad_grp (g1.curOK g hc)
  rw [hflat, List.map_map]
  have : (Prod.fst ∘ fun it : Item => (it.cnt % 2 ^ idBits c.ver, it.txn)) = (· % 2 ^ idBits c.ver) ∘ Item.cnt := rfl
  rw [this, ← List.map_map, g3, List.range_eq_range']

theorem sublist_range_mod {m n : Nat} {l1 l2 l3 : List Nat} (h : l1 ++ l2 ++ l3 = (List.range n).map (· % m))
    (hl : l2.length ≤ m) : l2.Nodup := by
  have h2 : l2 = (List.range' l1.length l2.length).map (· % m) := by
    have hn : n = l1.length + l2.length + l3.length := by
      have := congrArg List.length h
      simp at this; omega
    have e : List.range n = List.range' 0 l1.length ++ List.range' l1.length l2.length ++
        List.range' (l1.length + l2.length) l3.length := by
      rw [List.range_eq_range', hn, ← List.range'_append_1, Nat.zero_add, ← List.range'_append_1, Nat.zero_add]
    rw [e, List.map_append, List.map_append] at h
    have h3 := List.append_inj_left' h (by simp)
    exact List.append_inj_right h3 (by simp)
  rw [h2, List.nodup_iff_pairwise_ne, List.pairwise_map]
  refine List.Pairwise.imp_of_mem ?_ (List.nodup_iff_pairwise_ne.1 (List.nodup_range' (s := l1.length) (n := l2.length)))
  intro a b ha hb hab he
  rw [List.mem_range'_1] at ha hb
  apply hab
  have h1 := Nat.div_add_mod a m
  have h2 := Nat.div_add_mod b m
  rw [he] at h1
  rcases Nat.lt_trichotomy (a / m) (b / m) with hlt | heq | hlt
  · have := Nat.mul_le_mul_left m (show a / m + 1 ≤ b / m from hlt)
    rw [Nat.mul_add, Nat.mul_one] at this; omega
  · rw [heq] at h1; omega
  · have := Nat.mul_le_mul_left m (show b / m + 1 ≤ a / m from hlt)
    rw [Nat.mul_add, Nat.mul_one] at this; omega

/-- C09. Hence no two transactions of a packet (padding aside) share an id, as long as the packet holds no
more transactions than there are ids. -/
theorem C09_unique_partial (c : Cfg) (T : Transport τ) (hw : WF c) (hT : T.Total) (s0 : St τ) (hI : Inv c s0)
    (hcur : s0.cur = none) (hctr : s0.ctr = 0) (ops : List Op) (hops : ∀ op ∈ ops, op.ok c)
    (hcfg : c.ver = .v2 ∨ ∀ op ∈ ops, ∀ a m, op ≠ .readConfig a m) (rs : List Res) (s : St τ)
    (hrun : runOps c T ops s0 = some (rs, s)) (hrs : noFailure rs) :
    ∃ pk, parsePackets c.ver c.hub ((wire s).drop s0.hist.length) = some pk ∧
      ∀ p ∈ pk, (unpad p).length ≤ 2 ^ idBits c.ver → ((unpad p).map Prod.fst).Nodup := by
  obtain ⟨pk, n, h1, h2⟩ := C09_ids_partial c T hw hT s0 hI hcur hctr ops hops hcfg rs s hrun hrs
  refine ⟨pk, h1, ?_⟩
  intro p hp hlen
  obtain ⟨l1, l2, rfl⟩ := List.append_of_mem hp
  rw [List.map_append, List.map_cons, List.flatten_append, List.flatten_cons, List.map_append, List.map_append,
    ← List.append_assoc] at h2
  exact sublist_range_mod h2 (by simpa using hlen)

/-- C09, the exception: in IPbus 1.3 a configuration-space read is refused only after the counter has been
incremented, so the following transaction skips an id (here: byte-order 0, read 1, then 3). -/
theorem C09_gap : ∃ rs s, runOps (demoCfg .v1) demoTr [.read 1, .readConfig 0 0, .read 2] (St.init []) = some (rs, s) ∧
    (parsePackets .v1 (demoCfg .v1).hub (wire s)).map (List.map (List.map Prod.fst)) = some [[0, 1, 3]] := by
  have h : ((runOps (demoCfg .v1) demoTr [.read 1, .readConfig 0 0, .read 2] (St.init [])).map fun p =>
      (parsePackets .v1 (demoCfg .v1).hub (wire p.2)).map (List.map (List.map Prod.fst))) = some (some [[0, 1, 3]]) := by
    decide +kernel
  rw [Option.map_eq_some_iff] at h
  obtain ⟨⟨rs, s⟩, h1, h2⟩ := h
  exact ⟨rs, s, h1, h2⟩

/-- A program meeting the hypotheses of `C09_ids_partial`: two packets on the tiny configuration. -/
example : ∃ rs s, runOps tinyCfg demoTr [.write 0x10 1, .rmwBits 0x11 2 3, .dispatch] (St.init []) = some (rs, s) ∧
    noFailure rs ∧ s.hist.length = 2 := by
  have h : ((runOps tinyCfg demoTr [.write 0x10 1, .rmwBits 0x11 2 3, .dispatch] (St.init [])).map fun p =>
      (p.1, p.2.hist.length)) = some ([.ok (some (.hdr 0)), .ok (some (.word 1 noMask)), .ok none], 2) := by decide +kernel
  rw [Option.map_eq_some_iff] at h
  obtain ⟨⟨rs, s⟩, h1, h2⟩ := h
  injection h2 with h2 h3
  refine ⟨rs, s, h1, ?_, h3⟩
  simp only at h2
  rw [h2]
  intro r hr e he
  simp only [List.mem_cons, List.not_mem_nil, or_false] at hr
  rcases hr with rfl | rfl | rfl <;> cases he

/-- C17 (client layer). Every exception out of a call other than the two argument checks (a masked write
that does not fit; a configuration-space read in IPbus 1.3) leaves no open packet, a reset transaction
counter, and a transport that went through its exception handler. -/
theorem C17_clean (c : Cfg) (T : Transport τ) (hw : WF c) (hT : T.Total) (s : St τ) (hI : Inv c s) (op : Op)
    (hop : op.ok c) (e : Exc) (s' : St τ) (hrun : op.run c T s = .exc e s')
    (h1 : ∀ a d m, op ≠ .writeMasked a d m ∨ e ≠ .bitsForbidden)
    (h2 : ∀ a m, op ≠ .readConfig a m ∨ c.ver = .v2) :
    s'.cur = none ∧ s'.ctr = 0 ∧ (∃ t, s'.tr = T.handler t) ∧ Inv c s' := by
  obtain ⟨fs, G, hR⟩ := hI
  have hs := step hw (TOK_of_total hT) hR.rep op hop
  rw [hrun] at hs
  cases hs with
  | forbidden a d m hop hf => exact ((h1 a d m).elim (fun h => h hop) (fun h => h rfl)).elim
  | refused a m s' G' hop hv rep ext mono => exact ((h2 a m).elim (fun h => h hop) (fun h => by rw [h] at hv; cases hv)).elim
  | failed e s' us fail real =>
    obtain ⟨fs', hR', _⟩ := hR.failed (P' := fun _ _ => True) fail trivial trivial
    obtain ⟨t, ht, _⟩ := fail.tr
    exact ⟨fail.cur, fail.ctr, ⟨t, ht⟩, _, _, hR'⟩

end Verif
