import Verif.Lemmas.Pack
/-! The client's functions in terms of the ghost packets. -/

set_option linter.unusedSimpArgs false

set_option autoImplicit false

namespace Verif
open Spec

/-- The items that are not byte-order transactions. -/
def user (l : List Item) : List Item := l.filter fun it => decide (it.txn ≠ .bot)

theorem user_append (a b : List Item) : user (a ++ b) = user a ++ user b := by simp [user]

theorem user_bots {l : List Item} (h : ∀ it ∈ l, it.txn = .bot) : user l = [] := by
  simp only [user, List.filter_eq_nil_iff]; intro it hit; simp [h it hit]

theorem user_one {it : Item} (h : it.txn ≠ .bot) : user [it] = [it] := by simp [user, h]

/-- Reply words of an empty packet. -/
def Cfg.preReply (c : Cfg) : Nat := 1 + if c.hub.isSome then 3 else 0

/-- Configurations with sufficiently large packets: room for the preamble and the largest indivisible
transaction (4 request words, 2 reply words), and in IPbus 1.3 for the padded minimal packet. -/
structure WF (c : Cfg) : Prop where
  send : 4 * c.preambleSize + 16 ≤ c.maxSend.toNat
  pad : c.ver = .v1 → 4 * (7 + c.preambleSize) ≤ c.maxSend.toNat
  reply : 4 * c.preReply + 8 ≤ c.maxReply.toNat

/-- Configurations in which `checkBufferSpace` never dispatches a packet without transactions: more than 16
bytes are free in both directions in a new packet. -/
structure Roomy (c : Cfg) : Prop where
  send : 4 * c.preambleSize + 16 < c.maxSend.toNat
  reply : 4 * c.preReply + 16 < c.maxReply.toNat

/-- Items of a newly opened packet. -/
def openItems (c : Cfg) (obj n : Nat) : List Item :=
  match c.ver with
  | .v1 => [⟨n, .bot, obj, 0, 0, true⟩]
  | .v2 => []

theorem M.bind_ok {τ α β} {m : M τ α} {f : α → M τ β} {s s' : St τ} {a : α} (h : m s = .ok a s') :
    (m >>= f) s = f a s' := by
  show M.bind m f s = _; unfold M.bind; rw [h]

theorem M.bind_exc {τ α β} {m : M τ α} {f : α → M τ β} {s s' : St τ} {e} (h : m s = .exc e s') :
    (m >>= f) s = .exc e s' := by
  show M.bind m f s = _; unfold M.bind; rw [h]

theorem M.pure_eq {τ α} (a : α) (s : St τ) : (pure a : M τ α) s = .ok a s := rfl

section
variable {τ : Type} {c : Cfg} {T : Transport τ}

theorem sendWords_ok {ws : List W} {s : St τ} {b : Buf} (hb : s.cur = some b)
    (hfit : 4 * (b.send.length + ws.length) ≤ c.maxSend.toNat) :
    sendWords c ws s = .ok () { s with cur := some { b with send := b.send ++ ws } } := by
  unfold sendWords; rw [hb]; simp only [if_pos hfit]

theorem receive_ok {l : Loc} {n : Nat} {s : St τ} {b : Buf} (hb : s.cur = some b) :
    receive l n s = .ok () { s with cur := some { b with reply := b.reply ++ [⟨l, n⟩] } } := by
  unfold receive; rw [hb]

theorem addMem_ok {o : Nat} {s : St τ} {b : Buf} (hb : s.cur = some b) :
    addMem o s = .ok () { s with cur := some { b with adds := b.adds ++ [o] } } := by
  unfold addMem; rw [hb]

theorem freeSend_toNat {b : Buf} (h : 4 * b.send.length ≤ c.maxSend.toNat) :
    (freeSend c b).toNat = c.maxSend.toNat - 4 * b.send.length := by
  unfold freeSend
  have := c.maxSend.isLt
  rw [BitVec.toNat_sub, BitVec.toNat_ofNat]
  omega

theorem freeReply_toNat {b : Buf} (h : 4 * b.replyWords ≤ c.maxReply.toNat) :
    (freeReply c b).toNat = c.maxReply.toNat - 4 * b.replyWords := by
  unfold freeReply
  have := c.maxReply.isLt
  rw [BitVec.toNat_sub, BitVec.toNat_ofNat]
  omega

theorem update_none (hw : WF c) {s : St τ} (hcur : s.cur = none) {n : Nat} (hn : s.ctr = BitVec.ofNat 32 n) :
    updateCurrentBuffers c s = .ok ()
      { s with
        cur := some (mkBuf c ⟨s.nPre, openItems c s.nObj n⟩)
        ctr := BitVec.ofNat 32 (n + (openItems c s.nObj n).length)
        nObj := s.nObj + (openItems c s.nObj n).length
        nPre := s.nPre + 1 } := by
  have hs := hw.send
  have hr := hw.reply
  have hlt := c.maxSend.isLt
  have hlt' := c.maxReply.isLt
  unfold updateCurrentBuffers
  rw [hcur]
  obtain ⟨ver, hub, mS, mR, wn⟩ := c
  simp only [Cfg.preambleSize, Cfg.preReply] at hs hr hlt hlt'
  have hc : ∀ x : W, x + 1 = x + 1#32 := fun _ => rfl
  cases hub with
  | none =>
    simp only [Option.isSome_none] at hs hr
    cases ver with
    | v1 =>
      have f1 : 4#32 ≤ mS - BitVec.ofNat 32 (4 * 0) := by
        rw [BitVec.le_def]; simp; omega
      have f2 : 4#32 ≤ mR - BitVec.ofNat 32 (4 * 0) := by
        rw [BitVec.le_def]; simp; omega
      simp [preamble, hubPreamble, implementBOT, sendHeader, sendWords, receive, addMem, alloc, Buf.empty,
        openItems, mkBuf, preSend, preSlots, enc, slots, hdrWord, txTy, txWC, txArgs, txData, bind, M.bind,
        pure, M.pure, freeSend, freeReply, Buf.replyWords, f1, f2, hn, calcHeader, calcHeader1, typeCode1]
      have f3 : 4#32 ≤ mS := by simpa using f1
      have f4 : 4#32 ≤ mR := by simpa using f2
      have f5 : 4 ≤ mS.toNat := by omega
      simp [f3, f4, f5]
      simp [BitVec.ofNat_add]
    | v2 =>
      have f5 : 4 ≤ mS.toNat := by omega
      simp [preamble, hubPreamble, sendWords, receive, Buf.empty,
        openItems, mkBuf, preSend, preSlots, bind, M.bind, pure, M.pure, hn, f5]
  | some p =>
    obtain ⟨ip, port⟩ := p
    simp only [Option.isSome_some, if_true] at hs hr
    cases ver with
    | v1 =>
      have f1 : 4#32 ≤ mS - BitVec.ofNat 32 8 := by
        rw [BitVec.le_def, BitVec.toNat_sub]; simp; omega
      have f2 : 4#32 ≤ mR - BitVec.ofNat 32 12 := by
        rw [BitVec.le_def, BitVec.toNat_sub]; simp; omega
      have f5 : 12 ≤ mS.toNat := by omega
      have f6 : 8 ≤ mS.toNat := by omega
      simp [preamble, hubPreamble, implementBOT, sendHeader, sendWords, receive, addMem, alloc, Buf.empty,
        openItems, mkBuf, preSend, preSlots, enc, slots, hdrWord, txTy, txWC, txArgs, txData, bind, M.bind,
        pure, M.pure, freeSend, freeReply, Buf.replyWords, f1, f2, f5, f6, hn, calcHeader, calcHeader1, typeCode1]
      simp [BitVec.ofNat_add]
    | v2 =>
      have f5 : 12 ≤ mS.toNat := by omega
      have f6 : 8 ≤ mS.toNat := by omega
      simp [preamble, hubPreamble, sendWords, receive, Buf.empty,
        openItems, mkBuf, preSend, preSlots, bind, M.bind, pure, M.pure, hn, f5, f6]

theorem update_some {s : St τ} {b : Buf} (h : s.cur = some b) : updateCurrentBuffers c s = .ok () s := by
  unfold updateCurrentBuffers; rw [h]

theorem slt_zero_iff (x : W) : (0#32).slt x = true ↔ 0 < x.toNat ∧ x.toNat < 2 ^ 31 := by
  have := x.isLt
  simp only [BitVec.slt, BitVec.toInt_eq_toNat_cond, decide_eq_true_eq]
  simp
  split <;> omega

theorem padLoop_ok (hv : c.ver = .v1) (n : Nat) {s : St τ} {k : Nat} {its : List Item}
    (hb : s.cur = some (mkBuf c ⟨k, its⟩))
    (hfit : 4 * ((mkBuf c ⟨k, its⟩).send.length + n) ≤ c.maxSend.toNat) :
    padLoop c n s = .ok () { s with
      cur := some (mkBuf c ⟨k, its ++ padItems s.nObj n⟩)
      nObj := s.nObj + n } := by
  induction n generalizing s its with
  | zero =>
    show Out.ok () s = _
    simp [padItems, ← hb]
  | succ n ih =>
    unfold padLoop
    have hh : calcHeader1 .bot 0 0 0 = some 0x100000F8#32 := by decide
    rw [hh]
    simp only
    rw [M.bind_ok (sendWords_ok hb (by simp; omega))]
    rw [M.bind_ok (show alloc _ = .ok _ _ from rfl)]
    rw [M.bind_ok (addMem_ok rfl), M.bind_ok (receive_ok rfl)]
    have e : ({ (mkBuf c ⟨k, its⟩) with
        send := (mkBuf c ⟨k, its⟩).send ++ [0x100000F8#32]
        adds := (mkBuf c ⟨k, its⟩).adds ++ [s.nObj]
        reply := (mkBuf c ⟨k, its⟩).reply ++ [⟨.hdr s.nObj 0, 1⟩] } : Buf)
        = mkBuf c ⟨k, its ++ [⟨0, .bot, s.nObj, 0, 0, true⟩]⟩ := by
      have : hdrWord c.ver ⟨0, .bot, s.nObj, 0, 0, true⟩ = 0x100000F8#32 := by
        unfold hdrWord; rw [hv]; simp only [txTy, txWC]; decide
      simp [mkBuf, enc, slots, this, txArgs, txData]
    have hl : (mkBuf c ⟨k, its ++ [⟨0, .bot, s.nObj, 0, 0, true⟩]⟩).send.length
        = (mkBuf c ⟨k, its⟩).send.length + 1 := by
      rw [← e]; simp
    have := ih (s := { s with nObj := s.nObj + 1, cur := some (mkBuf c ⟨k, its ++ [⟨0, .bot, s.nObj, 0, 0, true⟩]⟩) })
      (its := its ++ [⟨0, .bot, s.nObj, 0, 0, true⟩]) rfl (by rw [hl]; omega)
    rw [← e] at this
    refine this.trans ?_
    simp [padItems]
    omega

theorem predispatch_ok (hw : WF c) {s : St τ} {g : Grp} (hb : s.cur = some (mkBuf c g))
    (hfit : 4 * (mkBuf c g).send.length ≤ c.maxSend.toNat) :
    predispatch c s = .ok () { s with
      cur := some (Fin'.buf c ⟨g, s.nObj, padCount c (mkBuf c g).send.length⟩)
      nObj := s.nObj + padCount c (mkBuf c g).send.length } := by
  have hpatch : ∀ (s : St τ) (b : Buf), s.cur = some b →
      hubPatch c s = .ok () { s with cur := some (patch c b) } := by
    intro s b hs
    unfold hubPatch patch
    cases c.hub with
    | none => simp [← hs]
    | some p => obtain ⟨ip, port⟩ := p; simp [hs]
  have hlt := c.maxSend.isLt
  obtain ⟨gk, its⟩ := g
  cases hv : c.ver with
  | v2 =>
    simp only [padCount, hv]
    rw [show predispatch c s = hubPatch c s by unfold predispatch; simp only [hv], hpatch s _ hb]
    simp [Fin'.buf, Fin'.all, padItems]
  | v1 =>
    unfold predispatch
    simp only [padCount, hv]
    generalize hL : (mkBuf c ⟨gk, its⟩).send.length = L at *
    have hpadN := hw.pad hv
    have hps : c.preambleSize ≤ 3 := by unfold Cfg.preambleSize; split <;> omega
    have hpad : (BitVec.ofNat 32 (7 + c.preambleSize) - BitVec.ofNat 32 L : W).toNat
        = (2 ^ 32 - L + (7 + c.preambleSize)) % 2 ^ 32 := by
      rw [BitVec.toNat_sub, BitVec.toNat_ofNat, BitVec.toNat_ofNat]
      omega
    have hstep : (match s.cur with
          | none => Out.ub
          | some b =>
            let pad : W := BitVec.ofNat 32 (7 + c.preambleSize) - BitVec.ofNat 32 b.send.length
            if (0#32).slt pad then padLoop c pad.toNat s else Out.ok () s)
        = .ok () { s with
            cur := some (mkBuf c ⟨gk, its ++ padItems s.nObj (7 + c.preambleSize - L)⟩)
            nObj := s.nObj + (7 + c.preambleSize - L) } := by
      rw [hb]
      simp only [hL]
      by_cases hlow : L < 7 + c.preambleSize
      · have hp : (BitVec.ofNat 32 (7 + c.preambleSize) - BitVec.ofNat 32 L : W).toNat = 7 + c.preambleSize - L := by
          rw [hpad]; omega
        rw [if_pos (by rw [slt_zero_iff, hp]; omega), hp]
        exact padLoop_ok hv _ hb (by rw [hL]; omega)
      · have h0 : 7 + c.preambleSize - L = 0 := by omega
        rw [if_neg (by rw [slt_zero_iff, hpad]; omega), h0]
        simp [padItems, ← hb]
    refine (M.bind_ok hstep).trans ?_
    rw [hpatch _ _ rfl]
    simp [Fin'.buf, Fin'.all]

/-! ### Representation invariant -/

/-- All memory words an item's reply is received into. -/
def itemLocs (it : Item) : List Loc :=
  .hdr it.obj it.hk :: (List.range ((txData it.txn).getD 0)).map fun i => .data it.obj (it.off + i)

/-- Shape of the items of a packet: in IPbus 1.3 one byte-order transaction in front, no other ones. -/
def GrpShape (v : Ver) (its : List Item) : Prop :=
  match v with
  | .v1 => ∃ n o us, its = ⟨n, .bot, o, 0, 0, true⟩ :: us ∧ ∀ it ∈ us, it.txn ≠ .bot
  | .v2 => ∀ it ∈ its, it.txn ≠ .bot

/-- A well-formed packet under construction that respects the size limits. -/
structure GrpOK (c : Cfg) (g : Grp) : Prop where
  shape : GrpShape c.ver g.items
  legal : ∀ it ∈ g.items, txLegal c.ver it.txn
  fitS : 4 * (mkBuf c g).send.length ≤ c.maxSend.toNat
  fitR : 4 * (mkBuf c g).replyWords ≤ c.maxReply.toNat

/-- A well-formed finished packet. -/
structure FinOK (c : Cfg) (f : Fin') : Prop where
  grp : GrpOK c f.g
  np : f.np = padCount c (mkBuf c f.g).send.length
  nodup : (f.all.flatMap itemLocs).Nodup
  ne : Roomy c → f.g.items ≠ []

/-- Ghost view of a client: buffers dispatched earlier (`base`), finished packets, packet under
construction, number of transactions. -/
structure Gh where
  base : List Buf
  done : List Fin'
  cur : Option Grp
  n : Nat

/-- Queued items in order, without padding. -/
def Gh.items (G : Gh) : List Item := G.done.flatMap (fun f => f.g.items) ++ (G.cur.map Grp.items).getD []

/-- All items including padding. -/
def Gh.all (G : Gh) : List Item := G.done.flatMap Fin'.all ++ (G.cur.map Grp.items).getD []

/-- Numbers of the preambles. -/
def Gh.ks (G : Gh) : List Nat := G.done.map (fun f => f.g.k) ++ (G.cur.map Grp.k).toList

/-- `a` may come before `b`: the last piece of an object is not followed by another piece of it. -/
def LastBefore (a b : Item) : Prop := a.last = true → a.obj ≠ b.obj

/-- The client state `s` is described by the ghost `G`; `P` is any property of history and transport
that the transport maintains. (`RepW`: also inside an operation, when the packet may still be empty.) -/
structure RepW (c : Cfg) (P : List Buf → τ → Prop) (s : St τ) (G : Gh) : Prop where
  hist : s.hist = G.base ++ G.done.map (Fin'.buf c)
  cur : s.cur = G.cur.map (mkBuf c)
  ctr : s.ctr = BitVec.ofNat 32 G.n
  curOK : ∀ g, G.cur = some g → GrpOK c g
  doneOK : ∀ f ∈ G.done, FinOK c f
  objs : ∀ it ∈ G.all, it.obj < s.nObj
  nodup : (G.all.flatMap itemLocs).Nodup
  last : G.all.Pairwise LastBefore
  ks : G.ks.Nodup ∧ ∀ k ∈ G.ks, k < s.nPre
  inv : P s.hist s.tr

/-- Between operations: moreover the open packet has transactions, and if there is none the transport has
been flushed (`F`). -/
structure Rep (c : Cfg) (P : List Buf → τ → Prop) (F : τ → Prop) (s : St τ) (G : Gh) : Prop extends RepW c P s G where
  ne : Roomy c → ∀ g, G.cur = some g → g.items ≠ []
  fl : G.cur = none → F s.tr

/-- What is assumed of the transport: given a well-formed packet it neither has undefined behaviour nor
loops, it maintains `P`, and its exceptions satisfy `Pe`. -/
structure TOK (c : Cfg) (T : Transport τ) (P : List Buf → τ → Prop) (F : τ → Prop) (Pe : List Buf → Exc → τ → Prop) : Prop where
  disp : ∀ h t f, P h t → FinOK c f → match T.disp t (f.buf c) with
    | .ok _ t' => P (h ++ [f.buf c]) t'
    | .exc e t' => Pe (h ++ [f.buf c]) e t'
    | _ => False
  flush : ∀ h t, P h t → match T.flush t with
    | .ok _ t' => P h t' ∧ F t'
    | .exc e t' => Pe h e t'
    | _ => False

/-- State after a failed dispatch; `us`: the items queued by the failing call. -/
structure Failed (c : Cfg) (T : Transport τ) (Pe : List Buf → Exc → τ → Prop) (G : Gh) (us : List Item) (o : Nat) (e : Exc)
    (s s' : St τ) : Prop where
  cur : s'.cur = none
  ctr : s'.ctr = 0
  hist : ∃ fs new, s'.hist = G.base ++ (G.done ++ fs).map (Fin'.buf c) ∧ (∀ f ∈ fs, FinOK c f ∧ ∀ it ∈ f.all, it.obj < s'.nObj) ∧
    (G.done ++ fs).flatMap (fun f => f.g.items) = G.items ++ new ∧ user new = us ∧
    new.map Item.cnt = List.range' G.n new.length ∧
    (((G.done ++ fs).flatMap Fin'.all).flatMap itemLocs).Nodup ∧ ((G.done ++ fs).flatMap Fin'.all).Pairwise LastBefore ∧
    ∀ it ∈ (G.done ++ fs).flatMap Fin'.all, it ∈ G.all ∨ o ≤ it.obj
  tr : ∃ t, s'.tr = T.handler t ∧ Pe s'.hist e t
  nObj : s.nObj ≤ s'.nObj

theorem padItems_obj {o n : Nat} {it : Item} (h : it ∈ padItems o n) : o ≤ it.obj ∧ it.obj < o + n ∧ it.txn = .bot := by
  induction n generalizing o with
  | zero => simp [padItems] at h
  | succ n ih =>
    simp only [padItems, List.mem_cons] at h
    rcases h with rfl | h
    · simp
    · obtain ⟨h1, h2, h3⟩ := ih h; exact ⟨by omega, by omega, h3⟩

theorem padItems_nodup (o n : Nat) : ((padItems o n).flatMap itemLocs).Nodup := by
  induction n generalizing o with
  | zero => simp [padItems]
  | succ n ih =>
    rw [padItems, List.flatMap_cons, List.nodup_append]
    refine ⟨by simp [itemLocs, txData], ih _, ?_⟩
    intro a ha b hb hab
    subst hab
    simp [itemLocs, txData] at ha
    subst ha
    rw [List.mem_flatMap] at hb
    obtain ⟨it, hit, hl⟩ := hb
    have := padItems_obj hit
    simp [itemLocs, this.2.2, txData] at hl
    omega

/-- The locations of an item belong to its object. -/
theorem itemLocs_obj {it : Item} {l : Loc} (h : l ∈ itemLocs it) : (∃ k, l = .hdr it.obj k) ∨ ∃ i, l = .data it.obj i := by
  simp only [itemLocs, List.mem_cons, List.mem_map] at h
  rcases h with rfl | ⟨i, _, rfl⟩
  · exact .inl ⟨_, rfl⟩
  · exact .inr ⟨_, rfl⟩

theorem itemLocs_disj {it it' : Item} {l : Loc} (h : l ∈ itemLocs it) (h' : l ∈ itemLocs it') : it.obj = it'.obj := by
  rcases itemLocs_obj h with ⟨k, rfl⟩ | ⟨k, rfl⟩ <;> rcases itemLocs_obj h' with ⟨k', e⟩ | ⟨k', e⟩ <;>
    simp at e <;> omega

/-- Appending items whose objects are all new keeps the locations distinct. -/
theorem nodup_append_new {l new : List Item} {o : Nat} (h : (l.flatMap itemLocs).Nodup)
    (hl : ∀ it ∈ l, it.obj < o) (hn : ∀ it ∈ new, o ≤ it.obj) (hnew : (new.flatMap itemLocs).Nodup) :
    ((l ++ new).flatMap itemLocs).Nodup := by
  rw [List.flatMap_append, List.nodup_append]
  refine ⟨h, hnew, ?_⟩
  intro a ha b hb hab
  subst hab
  rw [List.mem_flatMap] at ha hb
  obtain ⟨it, hit, hl1⟩ := ha
  obtain ⟨it', hit', hl2⟩ := hb
  have := itemLocs_disj hl1 hl2
  have := hl it hit
  have := hn it' hit'
  omega

theorem padItems_last (o n : Nat) : (padItems o n).Pairwise LastBefore := by
  induction n generalizing o with
  | zero => simp [padItems]
  | succ n ih =>
    rw [padItems, List.pairwise_cons]
    refine ⟨?_, ih _⟩
    intro b hb _ h
    have := padItems_obj hb
    simp at h; omega

/-- Appending items whose objects are all new keeps the last pieces last. -/
theorem last_append_new {l new : List Item} {o : Nat} (h : l.Pairwise LastBefore)
    (hl : ∀ it ∈ l, it.obj < o) (hn : ∀ it ∈ new, o ≤ it.obj) (hnew : new.Pairwise LastBefore) :
    (l ++ new).Pairwise LastBefore := by
  rw [List.pairwise_append]
  refine ⟨h, hnew, ?_⟩
  intro a ha b hb _ hab
  have := hl a ha
  have := hn b hb
  omega

/-- The items of an opened packet. -/
theorem openItems_spec (c : Cfg) (o n : Nat) :
    (∀ it ∈ openItems c o n, it.txn = .bot ∧ it.obj = o) ∧
    (openItems c o n).map Item.cnt = List.range' n (openItems c o n).length ∧
    ((openItems c o n).flatMap itemLocs).Nodup ∧ (openItems c o n).length ≤ 1 ∧
    (openItems c o n).Pairwise LastBefore := by
  unfold openItems
  cases c.ver <;> simp [itemLocs, txData]

theorem mkBuf_replyWords (c : Cfg) (g : Grp) :
    (mkBuf c g).replyWords = ((preSlots c g.k).map Slot.len).sum + (g.items.map replyLen).sum := by
  have : ∀ its : List Item, ((its.flatMap slots).map Slot.len).sum = (its.map replyLen).sum := by
    intro its
    induction its with
    | nil => rfl
    | cons it its ih =>
      simp only [List.flatMap_cons, List.map_append, List.sum_append, ih, slots_len, List.map_cons, List.sum_cons]
  simp [mkBuf, Buf.replyWords, this]

theorem mkBuf_sendLen (c : Cfg) (g : Grp) :
    (mkBuf c g).send.length = (preSend c).length + (g.items.flatMap (enc c.ver)).length := by
  simp [mkBuf]

/-- A newly opened packet is well-formed and leaves room for any indivisible transaction. -/
theorem open_ok (hw : WF c) (k o n : Nat) :
    GrpOK c ⟨k, openItems c o n⟩ ∧ (mkBuf c ⟨k, openItems c o n⟩).send.length = c.preambleSize ∧
    (mkBuf c ⟨k, openItems c o n⟩).replyWords = c.preReply := by
  have hs := hw.send
  have hr := hw.reply
  have h1 : (mkBuf c ⟨k, openItems c o n⟩).send.length = c.preambleSize := by
    unfold mkBuf preSend Cfg.preambleSize openItems
    cases c.ver <;> cases c.hub <;> simp [enc, txArgs]
  have h2 : (mkBuf c ⟨k, openItems c o n⟩).replyWords = c.preReply := by
    unfold Buf.replyWords mkBuf preSlots Cfg.preReply openItems
    cases c.ver <;> cases c.hub <;> simp [slots, txData]
  refine ⟨⟨?_, ?_, ?_, ?_⟩, h1, h2⟩
  · unfold openItems GrpShape
    cases c.ver
    · exact ⟨n, o, [], rfl, by simp⟩
    · simp
  · intro it hit
    unfold openItems at hit
    cases hv : c.ver <;> simp [hv] at hit
    subst hit
    simp [txLegal, txTy, txWC, supported, wcBits]
  · rw [h1]; omega
  · rw [h2]; omega

variable {P : List Buf → τ → Prop} {F : τ → Prop} {Pe : List Buf → Exc → τ → Prop}

/-- What `checkBufferSpace` may have done to the ghost view: closed the current packet and/or opened a new
one, adding at most the byte-order transaction of a preamble. -/
structure Opens (G G' : Gh) (o o' : Nat) : Prop where
  items : ∃ bots, G'.items = G.items ++ bots ∧ (∀ it ∈ bots, it.txn = .bot) ∧
    bots.map Item.cnt = List.range' G.n bots.length ∧ G'.n = G.n + bots.length
  all : ∀ it ∈ G'.all, it ∈ G.all ∨ o ≤ it.obj
  base : G'.base = G.base
  done : ∃ fs, G'.done = G.done ++ fs
  mono : o ≤ o'

theorem Opens.refl (G : Gh) (o : Nat) : Opens G G o o :=
  ⟨⟨[], by simp, by simp, by simp, by simp⟩, fun _ h => .inl h, rfl, ⟨[], by simp⟩, Nat.le_refl _⟩

/-- `updateCurrentBuffers` with no current buffer. -/
theorem rep_open (hw : WF c) {s : St τ} {G : Gh} (hR : RepW c P s G) (hcur : G.cur = none) :
    ∃ s' g, updateCurrentBuffers c s = .ok () s' ∧
      g = ⟨s.nPre, openItems c s.nObj G.n⟩ ∧
      RepW c P s' { G with cur := some g, n := G.n + (openItems c s.nObj G.n).length } ∧
      s'.nObj = s.nObj + (openItems c s.nObj G.n).length ∧ s'.nPre = s.nPre + 1 := by
  have hc : s.cur = none := by rw [hR.cur, hcur]; rfl
  refine ⟨_, _, update_none hw hc hR.ctr, rfl, ?_, rfl, rfl⟩
  obtain ⟨h1, h2, h3, h4, h5⟩ := openItems_spec c s.nObj G.n
  have hall : ({ G with cur := some ⟨s.nPre, openItems c s.nObj G.n⟩, n := G.n + (openItems c s.nObj G.n).length } : Gh).all
      = G.all ++ openItems c s.nObj G.n := by
    simp [Gh.all, hcur]
  refine ⟨hR.hist, rfl, rfl, ?_, hR.doneOK, ?_, ?_, ?_, ?_, hR.inv⟩
  · intro g hg; cases hg; exact (open_ok hw _ _ _).1
  · intro it hit
    rw [hall, List.mem_append] at hit
    rcases hit with hit | hit
    · exact Nat.lt_of_lt_of_le (hR.objs it hit) (Nat.le_add_right _ _)
    · rw [(h1 it hit).2]
      have := List.length_pos_of_mem hit
      simp only; omega
  · rw [hall]
    exact nodup_append_new hR.nodup hR.objs (fun it hit => Nat.le_of_eq (h1 it hit).2.symm) h3
  · rw [hall]
    exact last_append_new hR.last hR.objs (fun it hit => Nat.le_of_eq (h1 it hit).2.symm) h5
  · have hks : ({ G with cur := some ⟨s.nPre, openItems c s.nObj G.n⟩, n := G.n + (openItems c s.nObj G.n).length } : Gh).ks
      = G.ks ++ [s.nPre] := by simp [Gh.ks, hcur]
    rw [hks]
    refine ⟨?_, ?_⟩
    · rw [List.nodup_append]
      refine ⟨hR.ks.1, by simp, ?_⟩
      intro a ha b hb hab
      simp at hb
      have := hR.ks.2 a ha
      omega
    · intro k hk
      rw [List.mem_append] at hk
      rcases hk with hk | hk
      · have := hR.ks.2 k hk; simp only; omega
      · simp at hk; simp only; omega

/-- Closing the current packet (`predispatch`, `implementDispatch`, reset). -/
theorem rep_close (hw : WF c) (hT : TOK c T P F Pe) {s : St τ} {G : Gh} {g : Grp} (hR : RepW c P s G)
    (hcur : G.cur = some g) (hne : Roomy c → g.items ≠ []) :
    (∃ s' f, dispatchCurrent c T s = .ok () s' ∧ f.g = g ∧
      RepW c P s' { G with done := G.done ++ [f], cur := none } ∧
      (∀ it ∈ f.all, it ∈ g.items ∨ s.nObj ≤ it.obj) ∧
      s.nObj ≤ s'.nObj ∧ s'.nPre = s.nPre) ∨
    (∃ e s' t, dispatchCurrent c T s = .exc e s' ∧ Pe s'.hist e s'.tr ∧ s'.tr = t ∧
      (∃ f, s'.hist = G.base ++ (G.done ++ [f]).map (Fin'.buf c) ∧ FinOK c f ∧ f.g = g ∧ (∀ it ∈ f.all, it.obj < s'.nObj) ∧
        (((G.done ++ [f]).flatMap Fin'.all).flatMap itemLocs).Nodup ∧ ((G.done ++ [f]).flatMap Fin'.all).Pairwise LastBefore ∧
        ∀ it ∈ (G.done ++ [f]).flatMap Fin'.all, it ∈ G.all ∨ s.nObj ≤ it.obj) ∧
      s.nObj ≤ s'.nObj ∧ s'.nPre = s.nPre) := by
  have hb : s.cur = some (mkBuf c g) := by rw [hR.cur, hcur]; rfl
  have hg := hR.curOK g hcur
  have hpre := predispatch_ok (c := c) hw hb hg.fitS
  generalize hnp : padCount c (mkBuf c g).send.length = np at hpre
  have hall0 : ∀ it ∈ g.items, it ∈ G.all := by
    intro it hit; simp [Gh.all, hcur, hit]
  have hgn : (g.items.flatMap itemLocs).Nodup := by
    have := hR.nodup
    rw [Gh.all, hcur, List.flatMap_append, List.nodup_append] at this
    simpa using this.2.1
  have hfin : FinOK c ⟨g, s.nObj, np⟩ := by
    refine ⟨hg, hnp.symm, ?_, hne⟩
    exact nodup_append_new hgn (fun it hit => hR.objs it (hall0 it hit))
      (fun it hit => (padItems_obj hit).1) (padItems_nodup _ _)
  have hd := hT.disp s.hist s.tr ⟨g, s.nObj, np⟩ hR.inv hfin
  have hallF : (G.done ++ [(⟨g, s.nObj, np⟩ : Fin')]).flatMap Fin'.all = G.all ++ padItems s.nObj np := by
    simp [Gh.all, hcur, Fin'.all]
  have hnodF := nodup_append_new hR.nodup hR.objs (fun it hit => (padItems_obj hit).1) (padItems_nodup s.nObj np)
  have hlasF := last_append_new hR.last hR.objs (fun it hit => (padItems_obj hit).1) (padItems_last s.nObj np)
  unfold dispatchCurrent
  rw [M.bind_ok hpre]
  simp only
  cases hdisp : T.disp s.tr (Fin'.buf c ⟨g, s.nObj, np⟩) with
  | ok u t' =>
    rw [hdisp] at hd
    left
    refine ⟨_, ⟨g, s.nObj, np⟩, rfl, rfl, ?_, ?_, ?_, rfl⟩
    · have hall : ({ G with done := G.done ++ [⟨g, s.nObj, np⟩], cur := none } : Gh).all
          = G.all ++ padItems s.nObj np := by
        simp [Gh.all, hcur, Fin'.all]
      refine ⟨?_, rfl, hR.ctr, by simp, ?_, ?_, ?_, ?_, ?_, hd⟩
      · simp [hR.hist]
      · intro f hf
        simp only [List.mem_append, List.mem_singleton] at hf
        rcases hf with hf | rfl
        · exact hR.doneOK f hf
        · exact hfin
      · intro it hit
        rw [hall, List.mem_append] at hit
        rcases hit with hit | hit
        · exact Nat.lt_of_lt_of_le (hR.objs it hit) (Nat.le_add_right _ _)
        · exact (padItems_obj hit).2.1
      · rw [hall]; exact hnodF
      · rw [hall]; exact hlasF
      · have : ({ G with done := G.done ++ [⟨g, s.nObj, np⟩], cur := none } : Gh).ks = G.ks := by
          simp [Gh.ks, hcur]
        rw [this]; exact hR.ks
    · intro it hit
      rw [Fin'.all, List.mem_append] at hit
      rcases hit with hit | hit
      · exact .inl hit
      · exact .inr (padItems_obj hit).1
    · exact Nat.le_add_right _ _
  | exc e t' =>
    rw [hdisp] at hd
    right
    refine ⟨e, _, t', rfl, hd, rfl, ⟨⟨g, s.nObj, np⟩, ?_, hfin, rfl, ?_, by rw [hallF]; exact hnodF, by rw [hallF]; exact hlasF, ?_⟩,
      Nat.le_add_right _ _, rfl⟩
    · simp [hR.hist]
    · intro it hit
      rw [Fin'.all, List.mem_append] at hit
      rcases hit with hit | hit
      · exact Nat.lt_of_lt_of_le (hR.objs it (hall0 it hit)) (Nat.le_add_right _ _)
      · exact (padItems_obj hit).2.1
    · intro it hit
      rw [hallF, List.mem_append] at hit
      exact hit.imp id (fun h => (padItems_obj h).1)
  | ub => rw [hdisp] at hd; exact hd.elim
  | loops => rw [hdisp] at hd; exact hd.elim

/-- Sizes granted by `checkBufferSpace`. -/
def Granted (c : Cfg) (g : Grp) (reqS reqR aS aR : W) : Prop :=
  (aS = reqS ∧ aR = reqR ∧ reqS.toNat + 4 * (mkBuf c g).send.length ≤ c.maxSend.toNat ∧
    reqR.toNat + 4 * (mkBuf c g).replyWords ≤ c.maxReply.toNat) ∨
  (aS.toNat + 4 * (mkBuf c g).send.length = c.maxSend.toNat ∧
    aR.toNat + 4 * (mkBuf c g).replyWords = c.maxReply.toNat ∧
    ¬ (reqS.toNat ≤ aS.toNat ∧ reqR.toNat ≤ aR.toNat) ∧ 16 ≤ aS.toNat ∧ 8 ≤ aR.toNat)

theorem cbs_spec (hw : WF c) (hT : TOK c T P F Pe) {s : St τ} {G : Gh} (hR : Rep c P F s G) (reqS reqR : W) :
    (∃ s' G' g aS aR, checkBufferSpace c T reqS reqR s = .ok (aS, aR) s' ∧ RepW c P s' G' ∧ G'.cur = some g ∧
      Opens G G' s.nObj s'.nObj ∧ Granted c g reqS reqR aS aR) ∨
    (∃ e s', checkBufferSpace c T reqS reqR s = .exc e s' ∧ Failed c T Pe G [] s.nObj e s s') := by
  have hsz := hw.send
  have hrz := hw.reply
  -- after `updateCurrentBuffers`
  obtain ⟨s1, G1, g1, hu, hR1, hG1, hO1, hpre1, hne1⟩ : ∃ s1 G1 g1, updateCurrentBuffers c s = .ok () s1 ∧ RepW c P s1 G1 ∧
      G1.cur = some g1 ∧ Opens G G1 s.nObj s1.nObj ∧ (s.nPre ≤ s1.nPre ∧ G1.done = G.done) ∧
      (Roomy c → g1.items ≠ [] ∨ ((mkBuf c g1).send.length = c.preambleSize ∧ (mkBuf c g1).replyWords = c.preReply)) := by
    cases hc : G.cur with
    | some g =>
      have : s.cur = some (mkBuf c g) := by rw [hR.cur, hc]; rfl
      exact ⟨s, G, g, update_some this, hR.toRepW, hc, Opens.refl G _, ⟨Nat.le_refl _, rfl⟩, fun h => .inl (hR.ne h g hc)⟩
    | none =>
      obtain ⟨s', g, h1, h2, h3, h4, h5⟩ := rep_open hw hR.toRepW hc
      obtain ⟨o1, o2, o3, o4, o5⟩ := openItems_spec c s.nObj G.n
      refine ⟨s', _, g, h1, h3, rfl, ⟨⟨openItems c s.nObj G.n, ?_, fun it hit => (o1 it hit).1, o2, rfl⟩, ?_, rfl, ⟨[], by simp⟩, by omega⟩,
        ⟨by omega, rfl⟩, fun _ => .inr ?_⟩
      · simp [Gh.items, hc, h2]
      · intro it hit
        simp only [Gh.all, hc, h2, List.mem_append] at hit ⊢
        rcases hit with hit | hit
        · exact .inl (.inl hit)
        · exact .inr (Nat.le_of_eq (o1 it (by simpa using hit)).2.symm)
      · rw [h2]; exact (open_ok hw _ _ _).2
  have hb1 : s1.cur = some (mkBuf c g1) := by rw [hR1.cur, hG1]; rfl
  have hg1 := hR1.curOK g1 hG1
  have fs := freeSend_toNat hg1.fitS
  have fr := freeReply_toNat hg1.fitR
  have fS1 := hg1.fitS
  have fR1 := hg1.fitR
  unfold checkBufferSpace
  rw [M.bind_ok hu]
  simp only [hb1, BitVec.le_def, BitVec.lt_def, fs, fr]
  by_cases hreq : reqS.toNat ≤ c.maxSend.toNat - 4 * (mkBuf c g1).send.length ∧
      reqR.toNat ≤ c.maxReply.toNat - 4 * (mkBuf c g1).replyWords
  · rw [if_pos hreq]
    left
    exact ⟨s1, G1, g1, reqS, reqR, rfl, hR1, hG1, hO1, .inl ⟨rfl, rfl, by omega, by omega⟩⟩
  · rw [if_neg hreq]
    by_cases h16 : (16#32).toNat < c.maxSend.toNat - 4 * (mkBuf c g1).send.length ∧
        (16#32).toNat < c.maxReply.toNat - 4 * (mkBuf c g1).replyWords
    · rw [if_pos h16]
      left
      have e16 : (16#32).toNat = 16 := rfl
      rw [e16] at h16
      exact ⟨s1, G1, g1, _, _, rfl, hR1, hG1, hO1, .inr ⟨by omega, by omega, by rw [fs, fr]; exact hreq, by omega, by omega⟩⟩
    · rw [if_neg h16]
      have hne : Roomy c → g1.items ≠ [] := by
        intro hro
        rcases hne1 hro with h | ⟨h, h'⟩
        · exact h
        · exfalso
          apply h16
          have e16 : (16#32).toNat = 16 := rfl
          have := hro.send
          have := hro.reply
          rw [h, h', e16]; omega
      rcases rep_close hw hT hR1 hG1 hne with ⟨s2, f, hd, hf, hR2, hfa, hno, hnp⟩ | ⟨e, s2, t, hd, hpe, ht, ⟨f, hh, hfo, hfg, hfob, hfn, hfl, hfa⟩, hno, hnp⟩
      · obtain ⟨s3, g3, hu3, hg3, hR3, hno3, hnp3⟩ := rep_open hw hR2 rfl
        have hwh : withHandler T (dispatchCurrent c T) s1 = .ok () s2 := by unfold withHandler; rw [hd]
        rw [M.bind_ok hwh, M.bind_ok hu3]
        have hb3 : s3.cur = some (mkBuf c g3) := by rw [hR3.cur]; rfl
        have hok3 := hR3.curOK g3 rfl
        have fs3 := freeSend_toNat hok3.fitS
        have fr3 := freeReply_toNat hok3.fitR
        obtain ⟨_, hl3, hr3⟩ := open_ok hw s2.nPre s2.nObj G1.n
        obtain ⟨o1, o2, o3, o4, o5⟩ := openItems_spec c s2.nObj G1.n
        have hlen3 : (mkBuf c g3).send.length = c.preambleSize := by rw [hg3]; exact hl3
        have hrep3 : (mkBuf c g3).replyWords = c.preReply := by rw [hg3]; exact hr3
        have hop : Opens G { G1 with done := G1.done ++ [f], cur := some g3, n := G1.n + (openItems c s2.nObj G1.n).length }
            s.nObj s3.nObj := by
          obtain ⟨⟨bots, hi, hbt, hcn, hn⟩, ha, hba, hdn, hmo⟩ := hO1
          refine ⟨⟨bots ++ openItems c s2.nObj G1.n, ?_, ?_, ?_, ?_⟩, ?_, hba, ⟨[f], by simp [hpre1.2]⟩, by omega⟩
          · have : ({ G1 with done := G1.done ++ [f], cur := some g3, n := G1.n + (openItems c s2.nObj G1.n).length } : Gh).items
              = G1.items ++ openItems c s2.nObj G1.n := by
              simp [Gh.items, hG1, hf, hg3]
            rw [this, hi, List.append_assoc]
          · intro it hit
            rw [List.mem_append] at hit
            rcases hit with hit | hit
            · exact hbt it hit
            · exact (o1 it hit).1
          · rw [List.map_append, hcn, o2, List.length_append, hn, List.range'_append_1]
          · simp only [List.length_append]; omega
          · intro it hit
            have hall : ({ G1 with done := G1.done ++ [f], cur := some g3, n := G1.n + (openItems c s2.nObj G1.n).length } : Gh).all
              = G1.done.flatMap Fin'.all ++ f.all ++ openItems c s2.nObj G1.n := by
              simp [Gh.all, hg3]
            rw [hall, List.mem_append, List.mem_append] at hit
            have hin1 : ∀ it ∈ G1.all, it ∈ G.all ∨ s.nObj ≤ it.obj := ha
            rcases hit with (hit | hit) | hit
            · exact hin1 it (by simp only [Gh.all, List.mem_append]; exact .inl hit)
            · rcases hfa it hit with h | h
              · exact hin1 it (by simp [Gh.all, hG1, h])
              · exact .inr (by omega)
            · exact .inr (by have := (o1 it hit).2; omega)
        left
        simp only [hb3]
        rw [fs3, fr3, hlen3, hrep3]
        by_cases hreq3 : reqS.toNat ≤ c.maxSend.toNat - 4 * c.preambleSize ∧ reqR.toNat ≤ c.maxReply.toNat - 4 * c.preReply
        · rw [if_pos hreq3]
          exact ⟨s3, _, g3, reqS, reqR, rfl, hR3, rfl, hop, .inl ⟨rfl, rfl, by omega, by omega⟩⟩
        · rw [if_neg hreq3]
          refine ⟨s3, _, g3, _, _, rfl, hR3, rfl, hop, .inr ⟨by omega, by omega, ?_, by omega, by omega⟩⟩
          rw [fs3, fr3, hlen3, hrep3]; exact hreq3
      · have hwh : withHandler T (dispatchCurrent c T) s1 = .exc e (exceptionHandler T s2) := by unfold withHandler; rw [hd]
        rw [M.bind_exc hwh]
        right
        obtain ⟨bots, hi, hbt, hcn, hn⟩ := hO1.items
        refine ⟨e, _, rfl, ⟨rfl, rfl, ⟨[f], bots, ?_, ?_, ?_, user_bots hbt, hcn, hpre1.2 ▸ hfn, hpre1.2 ▸ hfl, ?_⟩, ⟨t, by simp [exceptionHandler, ht], ht ▸ hpe⟩, ?_⟩⟩
        · show s2.hist = _
          rw [hh, hO1.base, hpre1.2]
        · intro f' hf'; simp at hf'; subst hf'; exact ⟨hfo, hfob⟩
        · rw [← hi, ← hpre1.2]; simp [Gh.items, hG1, hfg]
        · intro it hit
          rw [← hpre1.2] at hit
          rcases hfa it hit with h | h
          · exact hO1.all it h
          · exact .inr (Nat.le_trans hO1.mono h)
        · show s.nObj ≤ s2.nObj
          have := hO1.mono; omega

end
end Verif
