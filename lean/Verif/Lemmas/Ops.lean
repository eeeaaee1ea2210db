import Verif.Lemmas.Client
/-! Every queued operation in terms of the ghost packets. -/

set_option autoImplicit false
set_option linter.unusedSimpArgs false

namespace Verif
open Spec

/-- `G'` extends `G` by items whose user part is `us`; ids continue without gaps; everything new lives in
objects numbered from `o` on. -/
structure Ext (G G' : Gh) (o : Nat) (us : List Item) : Prop where
  items : ∃ new, G'.items = G.items ++ new ∧ user new = us ∧
    new.map Item.cnt = List.range' G.n new.length ∧ G'.n = G.n + new.length
  all : ∀ it ∈ G'.all, it ∈ G.all ∨ o ≤ it.obj
  base : G'.base = G.base
  done : ∃ fs, G'.done = G.done ++ fs

theorem Opens.ext {G G' : Gh} {o o' : Nat} (h : Opens G G' o o') : Ext G G' o [] := by
  obtain ⟨⟨bots, h1, h2, h3, h4⟩, ha, hb, hd, hm⟩ := h
  exact ⟨⟨bots, h1, user_bots h2, h3, h4⟩, ha, hb, hd⟩

theorem Ext.trans {G G' G'' : Gh} {o o' : Nat} {us us' : List Item} (h : Ext G G' o us)
    (h' : Ext G' G'' o' us') (ho : o ≤ o') : Ext G G'' o (us ++ us') := by
  obtain ⟨⟨n1, a1, a2, a3, a4⟩, b1, b2, f1, b3⟩ := h
  obtain ⟨⟨n2, c1, c2, c3, c4⟩, d1, d2, f2, d3⟩ := h'
  refine ⟨⟨n1 ++ n2, ?_, ?_, ?_, ?_⟩, ?_, ?_, ⟨f1 ++ f2, by rw [d3, b3, List.append_assoc]⟩⟩
  · rw [c1, a1, List.append_assoc]
  · rw [user_append, a2, c2]
  · rw [List.map_append, a3, c3, a4, List.length_append, List.range'_append_1]
  · rw [c4, a4, List.length_append]; omega
  · intro it hit
    rcases d1 it hit with h | h
    · exact b1 it h
    · exact .inr (by omega)
  · rw [d2, b2]

/-- Weaken the lower bound on new objects. -/
theorem Ext.weaken {G G' : Gh} {o1 o : Nat} {us : List Item} (h : Ext G G' o us) (ho : o1 ≤ o) :
    Ext G G' o1 us := by
  obtain ⟨a, b, c, d⟩ := h
  refine ⟨a, ?_, c, d⟩
  intro it hit
  rcases b it hit with h | h
  · exact .inl h
  · exact .inr (by omega)

theorem Ext.refl (G : Gh) (o : Nat) : Ext G G o [] := (Opens.refl G o).ext

theorem itemLocs_nodup (it : Item) : (itemLocs it).Nodup := by
  unfold itemLocs
  rw [List.nodup_cons]
  constructor
  · simp
  · rw [List.nodup_iff_pairwise_ne, List.pairwise_map]
    apply List.Pairwise.imp _ (List.nodup_range (n := (txData it.txn).getD 0))
    intro a b hab h
    simp at h; omega

section
variable {τ : Type} {c : Cfg} {T : Transport τ} {P : List Buf → τ → Prop} {F : τ → Prop} {Pe : List Buf → Exc → τ → Prop}

theorem mkBuf_push (c : Cfg) (g : Grp) (it : Item) :
    mkBuf c ⟨g.k, g.items ++ [it]⟩ =
      { send := (mkBuf c g).send ++ enc c.ver it
        reply := (mkBuf c g).reply ++ slots it
        adds := (mkBuf c g).adds ++ (if it.last then [it.obj] else []) } := by
  cases hl : it.last <;> simp [mkBuf, hl]

theorem rep_push {s : St τ} {G : Gh} {g : Grp} (hR : RepW c P s G) (hcur : G.cur = some g) (it : Item)
    (hbot : it.txn ≠ .bot) (hlegal : txLegal c.ver it.txn) {o' : Nat}
    (hobj : it.obj < o') (hmono : s.nObj ≤ o')
    (hfresh : ∀ l ∈ itemLocs it, l ∉ G.all.flatMap itemLocs)
    (hlast : ∀ x ∈ G.all, LastBefore x it)
    (fitS : 4 * ((mkBuf c g).send.length + (enc c.ver it).length) ≤ c.maxSend.toNat)
    (fitR : 4 * ((mkBuf c g).replyWords + replyLen it) ≤ c.maxReply.toNat) :
    Rep c P F { s with
        cur := some (mkBuf c ⟨g.k, g.items ++ [it]⟩)
        ctr := BitVec.ofNat 32 (G.n + 1)
        nObj := o' }
      { G with cur := some ⟨g.k, g.items ++ [it]⟩, n := G.n + 1 } := by
  have hg := hR.curOK g hcur
  have hall : ({ G with cur := some ⟨g.k, g.items ++ [it]⟩, n := G.n + 1 } : Gh).all = G.all ++ [it] := by
    simp [Gh.all, hcur]
  refine ⟨⟨hR.hist, rfl, rfl, ?_, hR.doneOK, ?_, ?_, ?_, ?_, hR.inv⟩, fun _ g' hg' => by cases hg'; simp, by simp⟩
  · intro g' hg'
    cases hg'
    refine ⟨?_, ?_, ?_, ?_⟩
    · have := hg.shape
      unfold GrpShape at *
      cases hv : c.ver with
      | v1 =>
        rw [hv] at this
        obtain ⟨n, o, us, h1, h2⟩ := this
        refine ⟨n, o, us ++ [it], by simp [h1], ?_⟩
        intro x hx
        simp only [List.mem_append, List.mem_singleton] at hx
        rcases hx with hx | rfl
        · exact h2 x hx
        · exact hbot
      | v2 =>
        rw [hv] at this
        intro x hx
        simp only [List.mem_append, List.mem_singleton] at hx
        rcases hx with hx | rfl
        · exact this x hx
        · exact hbot
    · intro x hx
      simp only [List.mem_append, List.mem_singleton] at hx
      rcases hx with hx | rfl
      · exact hg.legal x hx
      · exact hlegal
    · rw [mkBuf_push]; simpa using fitS
    · rw [mkBuf_replyWords]
      rw [mkBuf_replyWords] at fitR
      simp only [List.map_append, List.sum_append, List.map_cons, List.map_nil, List.sum_cons, List.sum_nil]
      omega
  · intro x hx
    rw [hall, List.mem_append, List.mem_singleton] at hx
    rcases hx with hx | rfl
    · exact Nat.lt_of_lt_of_le (hR.objs x hx) hmono
    · exact hobj
  · rw [hall, List.flatMap_append, List.nodup_append]
    refine ⟨hR.nodup, by simpa using itemLocs_nodup it, ?_⟩
    intro a ha b hb hab
    subst hab
    exact hfresh a (by simpa using hb) ha
  · rw [hall, List.pairwise_append]
    refine ⟨hR.last, by simp, ?_⟩
    intro a ha b hb
    rw [List.mem_singleton] at hb
    subst hb
    exact hlast a ha
  · have : ({ G with cur := some ⟨g.k, g.items ++ [it]⟩, n := G.n + 1 } : Gh).ks = G.ks := by
      simp [Gh.ks, hcur]
    rw [this]; exact hR.ks

theorem push_ext {G : Gh} {g : Grp} (hcur : G.cur = some g) (it : Item) (hcnt : it.cnt = G.n)
    (hbot : it.txn ≠ .bot) {o : Nat} (ho : o ≤ it.obj) :
    Ext G { G with cur := some ⟨g.k, g.items ++ [it]⟩, n := G.n + 1 } o [it] := by
  refine ⟨⟨[it], ?_, user_one hbot, by simp [hcnt], rfl⟩, ?_, rfl, ⟨[], by simp⟩⟩
  · simp [Gh.items, hcur]
  · intro x hx
    have hall : ({ G with cur := some ⟨g.k, g.items ++ [it]⟩, n := G.n + 1 } : Gh).all = G.all ++ [it] := by
      simp [Gh.all, hcur]
    rw [hall, List.mem_append, List.mem_singleton] at hx
    rcases hx with hx | rfl
    · exact .inl hx
    · exact .inr ho

/-- An indivisible transaction: what remains to be shown is only that the code after `checkBufferSpace`
appends exactly the words, slots and object of the item. -/
theorem single_spec (hw : WF c) (hT : TOK c T P F Pe) {s : St τ} {G : Gh} (hR : Rep c P F s G)
    (m : M τ Handle) (t : Txn) (h : Nat → Handle) (reqS reqR : W) (rest : M τ Handle)
    (hm : m = (checkBufferSpace c T reqS reqR >>= fun _ => rest))
    (hbot : t ≠ .bot) (hlegal : txLegal c.ver t)
    (hS : reqS.toNat = 4 * (1 + (txArgs t).length)) (hS16 : reqS.toNat ≤ 16)
    (hRq : reqR.toNat = 4 * (1 + (txData t).getD 0)) (hR8 : reqR.toNat ≤ 8)
    (hrest : ∀ (s : St τ) (b : Buf) (n : Nat), s.cur = some b → s.ctr = BitVec.ofNat 32 n →
      4 * (b.send.length + (1 + (txArgs t).length)) ≤ c.maxSend.toNat →
      rest s = .ok (h s.nObj) { s with
        cur := some { send := b.send ++ enc c.ver ⟨n, t, s.nObj, 0, 0, true⟩
                      reply := b.reply ++ slots ⟨n, t, s.nObj, 0, 0, true⟩
                      adds := b.adds ++ [s.nObj] }
        ctr := BitVec.ofNat 32 (n + 1), nObj := s.nObj + 1 }) :
    (∃ s' G' it, m s = .ok (h it.obj) s' ∧ Rep c P F s' G' ∧ Ext G G' s.nObj [it] ∧ s.nObj ≤ s'.nObj ∧
        it.txn = t ∧ it.hk = 0 ∧ it.off = 0 ∧ it.last = true ∧ s.nObj ≤ it.obj) ∨
    (∃ e s', m s = .exc e s' ∧ Failed c T Pe G [] s.nObj e s s') := by
  subst hm
  rcases cbs_spec hw hT hR reqS reqR with ⟨s1, G1, g, aS, aR, h1, hR1, hg, hO, hgr⟩ | ⟨e, s1, h1, hF⟩
  · left
    rw [M.bind_ok h1]
    have hfit : reqS.toNat + 4 * (mkBuf c g).send.length ≤ c.maxSend.toNat ∧
        reqR.toNat + 4 * (mkBuf c g).replyWords ≤ c.maxReply.toNat := by
      rcases hgr with ⟨_, _, h2, h3⟩ | ⟨_, _, h4, h5, h6⟩
      · exact ⟨h2, h3⟩
      · exact absurd ⟨by omega, by omega⟩ h4
    have hb : s1.cur = some (mkBuf c g) := by rw [hR1.cur, hg]; rfl
    have he := hrest s1 (mkBuf c g) G1.n hb hR1.ctr (by omega)
    have hp := mkBuf_push c g ⟨G1.n, t, s1.nObj, 0, 0, true⟩
    simp only [if_true] at hp
    rw [← hp] at he
    refine ⟨_, { G1 with cur := some ⟨g.k, g.items ++ [⟨G1.n, t, s1.nObj, 0, 0, true⟩]⟩, n := G1.n + 1 },
      ⟨G1.n, t, s1.nObj, 0, 0, true⟩, he, ?_, ?_, ?_, rfl, rfl, rfl, rfl, hO.mono⟩
    · apply rep_push hR1 hg ⟨G1.n, t, s1.nObj, 0, 0, true⟩ hbot hlegal (by simp) (by simp)
      · intro l hl hl2
        rw [List.mem_flatMap] at hl2
        obtain ⟨x, hx, hlx⟩ := hl2
        have := itemLocs_disj hl hlx
        have := hR1.objs x hx
        simp at *; omega
      · intro x hx _ h
        have := hR1.objs x hx
        simp at h; omega
      · rw [enc_length]; simp only; omega
      · simp only [replyLen]; omega
    · have := hO.ext.trans (push_ext hg ⟨G1.n, t, s1.nObj, 0, 0, true⟩ rfl hbot (o := s1.nObj)
        (by simp)) hO.mono
      simpa using this
    · have := hO.mono
      simp only; omega
  · right
    exact ⟨e, s1, M.bind_exc h1, hF⟩

theorem add_one_ofNat (n : Nat) : (BitVec.ofNat 32 n + 1#32 : W) = BitVec.ofNat 32 (n + 1) := by
  apply BitVec.eq_of_toNat_eq; simp


theorem implementWrite_spec (hw : WF c) (hT : TOK c T P F Pe) {s : St τ} {G : Gh} (hR : Rep c P F s G) (a d : W) :
    (∃ s' G' it, implementWrite c T a d s = .ok (.hdr it.obj) s' ∧ Rep c P F s' G' ∧ Ext G G' s.nObj [it] ∧ s.nObj ≤ s'.nObj ∧
        it.txn = .write true a [d] ∧ it.hk = 0 ∧ it.off = 0 ∧ it.last = true ∧ s.nObj ≤ it.obj) ∨
    (∃ e s', implementWrite c T a d s = .exc e s' ∧ Failed c T Pe G [] s.nObj e s s') := by
  have hleg : txLegal c.ver (.write true a [d]) := by
    cases hv : c.ver <;> simp_all [txLegal, supported, txTy, txWC, wcBits]
  refine single_spec hw hT hR _ (.write true a [d]) (.hdr) 12 4 _ rfl (by simp) hleg rfl (by decide) rfl (by decide) ?_
  intro s b n hb hn hfit
  simp only [txArgs, List.length_cons, List.length_nil] at hfit
  have hh' : calcHeader c.ver .write 1#32 (BitVec.ofNat 32 n) (reqInfo c.ver) = _ :=
    hdrWord_spec (it := ⟨n, .write true a [d], s.nObj, 0, 0, true⟩) hleg
  have f1 : 4 * (b.send.length + 1) ≤ c.maxSend.toNat := by omega
  have f2 : 4 * (b.send.length + 1 + 1) ≤ c.maxSend.toNat := by omega
  have f3 : 4 * (b.send.length + 1 + 1 + 1) ≤ c.maxSend.toNat := by omega
  simp [sendHeader, sendWords, receive, addMem, alloc, bind, M.bind, pure, M.pure, hb, hn, hh', f1, f2, f3,
    enc, slots, txArgs, txData, add_one_ofNat]

theorem implementRead_spec (hw : WF c) (hT : TOK c T P F Pe) {s : St τ} {G : Gh} (hR : Rep c P F s G) (a m : W) :
    (∃ s' G' it, implementRead c T a m s = .ok ((fun o => Handle.word o m) it.obj) s' ∧ Rep c P F s' G' ∧ Ext G G' s.nObj [it] ∧ s.nObj ≤ s'.nObj ∧
        it.txn = .read true a 1 ∧ it.hk = 0 ∧ it.off = 0 ∧ it.last = true ∧ s.nObj ≤ it.obj) ∨
    (∃ e s', implementRead c T a m s = .exc e s' ∧ Failed c T Pe G [] s.nObj e s s') := by
  have hleg : txLegal c.ver (.read true a 1) := by
    cases hv : c.ver <;> simp_all [txLegal, supported, txTy, txWC, wcBits]
  refine single_spec hw hT hR _ (.read true a 1) ((fun o => Handle.word o m)) 8 8 _ rfl (by simp) hleg rfl (by decide) rfl (by decide) ?_
  intro s b n hb hn hfit
  simp only [txArgs, List.length_cons, List.length_nil] at hfit
  have hh' : calcHeader c.ver .read 1#32 (BitVec.ofNat 32 n) (reqInfo c.ver) = _ :=
    hdrWord_spec (it := ⟨n, .read true a 1, s.nObj, 0, 0, true⟩) hleg
  have f1 : 4 * (b.send.length + 1) ≤ c.maxSend.toNat := by omega
  have f2 : 4 * (b.send.length + 1 + 1) ≤ c.maxSend.toNat := by omega
  simp [sendHeader, sendWords, receive, addMem, alloc, bind, M.bind, pure, M.pure, hb, hn, hh', f1, f2,
    enc, slots, txArgs, txData, add_one_ofNat]

theorem implementReadConfigurationSpace_spec (hw : WF c) (hT : TOK c T P F Pe) {s : St τ} {G : Gh} (hR : Rep c P F s G) (a m : W) (hv2 : c.ver = .v2) :
    (∃ s' G' it, implementReadConfigurationSpace c T a m s = .ok ((fun o => Handle.word o m) it.obj) s' ∧ Rep c P F s' G' ∧ Ext G G' s.nObj [it] ∧ s.nObj ≤ s'.nObj ∧
        it.txn = .cfgRead a 1 ∧ it.hk = 0 ∧ it.off = 0 ∧ it.last = true ∧ s.nObj ≤ it.obj) ∨
    (∃ e s', implementReadConfigurationSpace c T a m s = .exc e s' ∧ Failed c T Pe G [] s.nObj e s s') := by
  have hleg : txLegal c.ver (.cfgRead a 1) := by
    cases hv : c.ver <;> simp_all [txLegal, supported, txTy, txWC, wcBits]
  refine single_spec hw hT hR _ (.cfgRead a 1) ((fun o => Handle.word o m)) 8 8 _ rfl (by simp) hleg rfl (by decide) rfl (by decide) ?_
  intro s b n hb hn hfit
  simp only [txArgs, List.length_cons, List.length_nil] at hfit
  have hh' : calcHeader c.ver .configRead 1#32 (BitVec.ofNat 32 n) (reqInfo c.ver) = _ :=
    hdrWord_spec (it := ⟨n, .cfgRead a 1, s.nObj, 0, 0, true⟩) hleg
  have f1 : 4 * (b.send.length + 1) ≤ c.maxSend.toNat := by omega
  have f2 : 4 * (b.send.length + 1 + 1) ≤ c.maxSend.toNat := by omega
  simp [sendHeader, sendWords, receive, addMem, alloc, bind, M.bind, pure, M.pure, hb, hn, hh', f1, f2,
    enc, slots, txArgs, txData, add_one_ofNat]

theorem implementRMWbits_spec (hw : WF c) (hT : TOK c T P F Pe) {s : St τ} {G : Gh} (hR : Rep c P F s G) (a x o : W) :
    (∃ s' G' it, implementRMWbits c T a x o s = .ok ((fun i => Handle.word i noMask) it.obj) s' ∧ Rep c P F s' G' ∧ Ext G G' s.nObj [it] ∧ s.nObj ≤ s'.nObj ∧
        it.txn = .rmwBits a x o ∧ it.hk = 0 ∧ it.off = 0 ∧ it.last = true ∧ s.nObj ≤ it.obj) ∨
    (∃ e s', implementRMWbits c T a x o s = .exc e s' ∧ Failed c T Pe G [] s.nObj e s s') := by
  have hleg : txLegal c.ver (.rmwBits a x o) := by
    cases hv : c.ver <;> simp_all [txLegal, supported, txTy, txWC, wcBits]
  refine single_spec hw hT hR _ (.rmwBits a x o) ((fun i => Handle.word i noMask)) 16 8 _ rfl (by simp) hleg rfl (by decide) rfl (by decide) ?_
  intro s b n hb hn hfit
  simp only [txArgs, List.length_cons, List.length_nil] at hfit
  have hh' : calcHeader c.ver .rmwBits 1#32 (BitVec.ofNat 32 n) (reqInfo c.ver) = _ :=
    hdrWord_spec (it := ⟨n, .rmwBits a x o, s.nObj, 0, 0, true⟩) hleg
  have f1 : 4 * (b.send.length + 1) ≤ c.maxSend.toNat := by omega
  have f2 : 4 * (b.send.length + 1 + 1) ≤ c.maxSend.toNat := by omega
  have f3 : 4 * (b.send.length + 1 + 1 + 1) ≤ c.maxSend.toNat := by omega
  have f4 : 4 * (b.send.length + 1 + 1 + 1 + 1) ≤ c.maxSend.toNat := by omega
  simp [sendHeader, sendWords, receive, addMem, alloc, bind, M.bind, pure, M.pure, hb, hn, hh', f1, f2, f3, f4,
    enc, slots, txArgs, txData, add_one_ofNat]

theorem implementRMWsum_spec (hw : WF c) (hT : TOK c T P F Pe) {s : St τ} {G : Gh} (hR : Rep c P F s G) (a x : W) :
    (∃ s' G' it, implementRMWsum c T a x s = .ok ((fun i => Handle.word i noMask) it.obj) s' ∧ Rep c P F s' G' ∧ Ext G G' s.nObj [it] ∧ s.nObj ≤ s'.nObj ∧
        it.txn = .rmwSum a x ∧ it.hk = 0 ∧ it.off = 0 ∧ it.last = true ∧ s.nObj ≤ it.obj) ∨
    (∃ e s', implementRMWsum c T a x s = .exc e s' ∧ Failed c T Pe G [] s.nObj e s s') := by
  have hleg : txLegal c.ver (.rmwSum a x) := by
    cases hv : c.ver <;> simp_all [txLegal, supported, txTy, txWC, wcBits]
  refine single_spec hw hT hR _ (.rmwSum a x) ((fun i => Handle.word i noMask)) 12 8 _ rfl (by simp) hleg rfl (by decide) rfl (by decide) ?_
  intro s b n hb hn hfit
  simp only [txArgs, List.length_cons, List.length_nil] at hfit
  have hh' : calcHeader c.ver .rmwSum 1#32 (BitVec.ofNat 32 n) (reqInfo c.ver) = _ :=
    hdrWord_spec (it := ⟨n, .rmwSum a x, s.nObj, 0, 0, true⟩) hleg
  have f1 : 4 * (b.send.length + 1) ≤ c.maxSend.toNat := by omega
  have f2 : 4 * (b.send.length + 1 + 1) ≤ c.maxSend.toNat := by omega
  have f3 : 4 * (b.send.length + 1 + 1 + 1) ≤ c.maxSend.toNat := by omega
  simp [sendHeader, sendWords, receive, addMem, alloc, bind, M.bind, pure, M.pure, hb, hn, hh', f1, f2, f3,
    enc, slots, txArgs, txData, add_one_ofNat]

/-- The packet under construction and the counter after a refused configuration-space read. -/
theorem readConfig_v1_spec (hw : WF c) (hT : TOK c T P F Pe) {s : St τ} {G : Gh} (hR : Rep c P F s G) (a m : W)
    (hv1 : c.ver = .v1) :
    (∃ s' G', implementReadConfigurationSpace c T a m s = .exc .headerType s' ∧
        Rep c P F s' { G' with n := G'.n + 1 } ∧ Ext G G' s.nObj [] ∧ s.nObj ≤ s'.nObj) ∨
    (∃ e s', implementReadConfigurationSpace c T a m s = .exc e s' ∧ Failed c T Pe G [] s.nObj e s s') := by
  unfold implementReadConfigurationSpace
  rcases cbs_spec hw hT hR 8 8 with ⟨s1, G1, g, aS, aR, h1, hR1, hg, hO, hgr⟩ | ⟨e, s1, h1, hF⟩
  · left
    rw [M.bind_ok h1]
    have hb : s1.cur = some (mkBuf c g) := by rw [hR1.cur, hg]; rfl
    have hs : sendHeader c .configRead 1 s1 = .exc .headerType { s1 with ctr := BitVec.ofNat 32 (G1.n + 1) } := by
      unfold sendHeader
      have hc := hR1.ctr
      have : calcHeader c.ver .configRead 1 s1.ctr (reqInfo c.ver) = none := by
        rw [hv1]; rfl
      simp only [hb, this]
      rw [hc, ← add_one_ofNat]; rfl
    refine ⟨_, G1, M.bind_exc hs, ?_, hO.ext, hO.mono⟩
    refine ⟨⟨hR1.hist, hR1.cur, rfl, hR1.curOK, hR1.doneOK, hR1.objs, hR1.nodup, hR1.last, hR1.ks, hR1.inv⟩, ?_, by simp [hg]⟩
    intro _ g' hg'
    obtain ⟨n, o, us, h, _⟩ : GrpShape .v1 g'.items := hv1 ▸ (hR1.curOK g' hg').shape
    rw [h]; simp
  · right
    exact ⟨e, s1, M.bind_exc h1, hF⟩


/-! ### Blocks -/

theorem sendHeader_ok {ty : Ty} {wc h : W} {s : St τ} {b : Buf} {n : Nat} (hb : s.cur = some b)
    (hc : s.ctr = BitVec.ofNat 32 n) (hh : calcHeader c.ver ty wc (BitVec.ofNat 32 n) (reqInfo c.ver) = some h)
    (hfit : 4 * (b.send.length + 1) ≤ c.maxSend.toNat) :
    sendHeader c ty wc s = .ok () { s with
      cur := some { b with send := b.send ++ [h] }
      ctr := BitVec.ofNat 32 (n + 1) } := by
  unfold sendHeader
  simp only [hc, hh]
  have := sendWords_ok (c := c) (ws := [h]) (s := { s with ctr := BitVec.ofNat 32 n + 1 }) (b := b) hb (by simpa using hfit)
  rw [this, ← add_one_ofNat]; rfl

theorem and_mask4 (x : W) : (x &&& 0xFFFFFFFC#32).toNat = 4 * (x.toNat / 4) := by
  have h : x &&& 0xFFFFFFFC#32 = (x >>> 2) <<< 2 := by
    apply BitVec.eq_of_getLsbD_eq
    intro i hi
    have h2 : (0xFFFFFFFC#32).getLsbD i = decide (2 ≤ i) := by
      have : ∀ i : Fin 32, (0xFFFFFFFC#32).getLsbD i = decide (2 ≤ (i : Nat)) := by decide
      exact this ⟨i, hi⟩
    rw [BitVec.getLsbD_and, h2, BitVec.getLsbD_shiftLeft, BitVec.getLsbD_ushiftRight]
    by_cases h : 2 ≤ i
    · have e : 2 + (i - 2) = i := by omega
      simp [h, hi, e, Nat.not_lt.mpr h]
    · simp [h, Nat.lt_of_not_ge h]
  rw [h, BitVec.toNat_shiftLeft, BitVec.toNat_ushiftRight, Nat.shiftLeft_eq, Nat.shiftRight_eq_div_pow]
  have := x.isLt
  omega

theorem maxWC_toNat (v : Ver) : (maxWC v).toNat = 2 ^ wcBits v - 1 := by cases v <;> rfl

theorem payloadBytes_toNat (c : Cfg) (avail ov : W) (h : ov.toNat ≤ avail.toNat) :
    (payloadBytes c avail ov).toNat = 4 * min (2 ^ wcBits c.ver - 1) ((avail.toNat - ov.toNat) / 4) := by
  unfold payloadBytes
  have h1 : (4#32 * maxWC c.ver).toNat = 4 * (2 ^ wcBits c.ver - 1) := by cases c.ver <;> rfl
  have h2 : (avail - ov).toNat = avail.toNat - ov.toNat := by
    rw [BitVec.toNat_sub]; have := avail.isLt; have := ov.isLt; omega
  simp only []
  rw [and_mask4]
  split
  · rename_i hlt
    rw [BitVec.lt_def, h1, h2] at hlt
    rw [h2]; omega
  · rename_i hlt
    rw [BitVec.lt_def, h1, h2] at hlt
    rw [h1]; omega

theorem M.bind_congr {τ α β} {m m' : M τ α} {f : α → M τ β} {s s' : St τ} (h : m s = m' s') :
    (m >>= f) s = (m' >>= f) s' := by
  show M.bind m f s = M.bind m' f s'
  unfold M.bind; rw [h]

/-- Addresses of the pieces of a block write. -/
def wtxns (inc : Bool) : W → List (List W) → List Txn
  | _, [] => []
  | a, ch :: chs => .write inc a ch :: wtxns inc (if inc then a + BitVec.ofNat 32 ch.length else a) chs

/-- Addresses of the pieces of a block read. -/
def rtxns (inc : Bool) : W → List Nat → List Txn
  | _, [] => []
  | a, n :: ns => .read inc a n :: rtxns inc (if inc then a + BitVec.ofNat 32 n else a) ns

/-- The pieces of a block share one object, have consecutive header indices from `k`, data slices that
follow each other from `off`, and only the last one registers the object. -/
def Tiles (obj : Nat) : Nat → Nat → List Item → Prop
  | _, _, [] => False
  | k, off, [it] => it.obj = obj ∧ it.hk = k ∧ it.off = off ∧ it.last = true
  | k, off, it :: its => it.obj = obj ∧ it.hk = k ∧ it.off = off ∧ it.last = false ∧
      Tiles obj (k + 1) (off + (txData it.txn).getD 0) its

theorem Tiles.cons {obj k off : Nat} {it : Item} {its : List Item} (h : Tiles obj (k + 1) (off + (txData it.txn).getD 0) its)
    (h1 : it.obj = obj) (h2 : it.hk = k) (h3 : it.off = off) (h4 : it.last = false) : Tiles obj k off (it :: its) := by
  cases its with
  | nil => exact h.elim
  | cons a l => exact ⟨h1, h2, h3, h4, h⟩

/-- The locations already used by object `obj` lie below header index `k` and data offset `off`. -/
def Below (G : Gh) (obj k off : Nat) : Prop :=
  ∀ it ∈ G.all, it.obj = obj → it.hk < k ∧ it.off + (txData it.txn).getD 0 ≤ off ∧ it.last = false

theorem below_fresh {G : Gh} {obj k off : Nat} (hB : Below G obj k off) {it : Item} (h1 : it.obj = obj) (h2 : it.hk = k)
    (h3 : it.off = off) : ∀ l ∈ itemLocs it, l ∉ G.all.flatMap itemLocs := by
  intro l hl hl2
  rw [List.mem_flatMap] at hl2
  obtain ⟨x, hx, hlx⟩ := hl2
  have ho := itemLocs_disj hl hlx
  have hb := hB x hx (by omega)
  simp only [itemLocs, List.mem_cons, List.mem_map, List.mem_range] at hl hlx
  rcases hl with rfl | ⟨i, hi, rfl⟩ <;> rcases hlx with e | ⟨j, hj, e⟩ <;> simp at e <;> omega

theorem below_last {G : Gh} {obj k off : Nat} (hB : Below G obj k off) {it : Item} (h1 : it.obj = obj) :
    ∀ x ∈ G.all, LastBefore x it := by
  intro x hx hl ho
  have := (hB x hx (by omega)).2.2
  rw [this] at hl; cases hl

theorem below_opens {G G' : Gh} {o o' obj k off : Nat} (hB : Below G obj k off) (hO : Opens G G' o o') (h : obj < o) :
    Below G' obj k off := by
  intro it hit he
  rcases hO.all it hit with h1 | h1
  · exact hB it h1 he
  · omega

theorem below_push {G : Gh} {g : Grp} (hcur : G.cur = some g) {it : Item} {obj k off : Nat} (hB : Below G obj k off)
    (h2 : it.hk = k) (h3 : it.off = off) (h4 : it.last = false) (n : Nat) :
    Below { G with cur := some ⟨g.k, g.items ++ [it]⟩, n := n } obj (k + 1) (off + (txData it.txn).getD 0) := by
  intro x hx he
  have hall : ({ G with cur := some ⟨g.k, g.items ++ [it]⟩, n := n } : Gh).all = G.all ++ [it] := by
    simp [Gh.all, hcur]
  rw [hall, List.mem_append, List.mem_singleton] at hx
  rcases hx with hx | rfl
  · have := hB x hx he; exact ⟨by omega, by omega, this.2.2⟩
  · exact ⟨by omega, by omega, h4⟩

/-- One turn of the loop of `implementWriteBlock`. -/
theorem writeBlockLoop_step (hw : WF c) (hT : TOK c T P F Pe) {s : St τ} {G : Gh} (hR : Rep c P F s G)
    (inc : Bool) (obj k : Nat) (rest : List W) (addr payload : W) (ne : Bool) (hne : ne = false → rest = []) (fuel : Nat)
    (hpay : payload.toNat = 4 * rest.length) (hlt : payload.toNat < 2 ^ 31) :
    (∃ s1 G1 g n, RepW c P s1 G1 ∧ G1.cur = some g ∧ Opens G G1 s.nObj s1.nObj ∧
      n ≤ rest.length ∧ (rest ≠ [] → 0 < n) ∧ n < 2 ^ wcBits c.ver ∧
      4 * ((mkBuf c g).send.length + (2 + n)) ≤ c.maxSend.toNat ∧
      4 * ((mkBuf c g).replyWords + 1) ≤ c.maxReply.toNat ∧
      writeBlockLoop c T (if inc then .write else .niWrite) inc ne obj (fuel + 1) k rest addr payload s =
        (if n < rest.length then
          writeBlockLoop c T (if inc then .write else .niWrite) inc ne obj fuel (k + 1) (rest.drop n)
            (if inc then addr + BitVec.ofNat 32 n else addr) (payload - BitVec.ofNat 32 (4 * n))
         else pure ())
        { s1 with
          cur := some { send := (mkBuf c g).send ++ enc c.ver ⟨G1.n, .write inc addr (rest.take n), obj, k, 0, false⟩
                        reply := (mkBuf c g).reply ++ slots ⟨G1.n, .write inc addr (rest.take n), obj, k, 0, false⟩
                        adds := (mkBuf c g).adds }
          ctr := BitVec.ofNat 32 (G1.n + 1) }) ∨
    (∃ e s', writeBlockLoop c T (if inc then .write else .niWrite) inc ne obj (fuel + 1) k rest addr payload s = .exc e s' ∧
      Failed c T Pe G [] s.nObj e s s') := by
  rw [writeBlockLoop]
  rcases cbs_spec hw hT hR (8#32 + payload) 4 with ⟨s1, G1, g, aS, aR, h1, hR1, hg, hO, hgr⟩ | ⟨e, s1, h1, hF⟩
  · left
    have hreq : (8#32 + payload).toNat = 8 + 4 * rest.length := by
      rw [BitVec.toNat_add]; simp; omega
    have h4 : (4 : W).toNat = 4 := rfl
    have hov : (8 : W).toNat = 8 := rfl
    obtain ⟨n, hn, hn1, hn2, hn3, hn4, hn5⟩ : ∃ n, payloadBytes c aS 8 = BitVec.ofNat 32 (4 * n) ∧ n ≤ rest.length ∧
        (rest ≠ [] → 0 < n) ∧ n < 2 ^ wcBits c.ver ∧ 4 * ((mkBuf c g).send.length + (2 + n)) ≤ c.maxSend.toNat ∧
        4 * ((mkBuf c g).replyWords + 1) ≤ c.maxReply.toNat := by
      have hwc : 2 ^ 8 ≤ 2 ^ wcBits c.ver ∧ 2 ^ wcBits c.ver ≤ 2 ^ 9 := by cases c.ver <;> simp [wcBits]
      have h8 : (8 : W).toNat ≤ aS.toNat := by
        rcases hgr with ⟨rfl, _⟩ | h <;> omega
      have hp := payloadBytes_toNat c aS 8 h8
      have hpos : rest ≠ [] → 0 < rest.length := List.length_pos_iff.mpr
      refine ⟨min (2 ^ wcBits c.ver - 1) ((aS.toNat - 8) / 4), ?_, ?_⟩
      · apply BitVec.eq_of_toNat_eq
        rw [hp, BitVec.toNat_ofNat]
        have := aS.isLt
        omega
      · rcases hgr with ⟨rfl, rfl, h2, h3⟩ | ⟨h2, h3, h5, h6, h7⟩
        · rw [hreq] at *
          refine ⟨by omega, fun h => ?_, by omega, by omega, by omega⟩
          have := hpos h; omega
        · rw [hreq] at *
          refine ⟨by omega, fun h => ?_, by omega, by omega, by omega⟩
          omega
    refine ⟨s1, G1, g, n, hR1, hg, hO, hn1, hn2, hn3, hn4, hn5, ?_⟩
    have hb : s1.cur = some (mkBuf c g) := by rw [hR1.cur, hg]; rfl
    have hsh : (BitVec.ofNat 32 (4 * n)) >>> 2 = BitVec.ofNat 32 n := by
      apply BitVec.eq_of_toNat_eq
      rw [BitVec.toNat_ushiftRight, Nat.shiftRight_eq_div_pow, BitVec.toNat_ofNat, BitVec.toNat_ofNat]
      omega
    have hdiv : (BitVec.ofNat 32 (4 * n)).toNat / 4 = n := by
      rw [BitVec.toNat_ofNat]; omega
    have hleg : txLegal c.ver (.write inc addr (rest.take n)) := by
      refine ⟨by cases hv : c.ver <;> cases inc <;> simp [supported, txTy], ?_⟩
      simp [txWC]; omega
    have hh := hdrWord_spec (it := ⟨G1.n, .write inc addr (rest.take n), obj, k, 0, false⟩) hleg
    have hty : txTy (.write inc addr (rest.take n)) = if inc then .write else .niWrite := by cases inc <;> rfl
    have htl : (rest.take n).length = n := by simp; omega
    simp only [hty, txWC, htl] at hh
    have hslt : ∀ p : W, p = (if ne then payload - BitVec.ofNat 32 (4 * n) else payload) →
        ((0#32).slt p = true ↔ n < rest.length) := by
      intro p hp
      rw [slt_zero_iff]
      cases hne' : ne with
      | false =>
        have := hne hne'
        subst this
        simp at hpay hn1
        rw [hp, hne']; simp [hpay]
      | true =>
        rw [hp, hne', if_pos rfl, BitVec.toNat_sub, BitVec.toNat_ofNat]
        omega
    have hempty : ne = false → n = 0 := by
      intro h; have := hne h; subst this; simpa using hn1
    rw [M.bind_ok h1]
    simp only [hn, hsh, hdiv]
    have hc := hR1.ctr
    have hsend : sendHeader c (if inc then .write else .niWrite) (BitVec.ofNat 32 n) s1 = .ok ()
        { s1 with
          cur := some { mkBuf c g with send := (mkBuf c g).send ++ [hdrWord c.ver ⟨G1.n, .write inc addr (rest.take n), obj, k, 0, false⟩] }
          ctr := BitVec.ofNat 32 (G1.n + 1) } := by
      exact sendHeader_ok hb hc hh (by omega)
    refine (M.bind_ok hsend).trans ?_
    refine (M.bind_ok (sendWords_ok (b := { mkBuf c g with send := (mkBuf c g).send ++ [hdrWord c.ver ⟨G1.n, .write inc addr (rest.take n), obj, k, 0, false⟩] }) rfl (by simp; omega))).trans ?_
    cases hne' : ne with
    | false =>
      have h0 := hempty hne'
      have hr := hne hne'
      subst h0 hr
      refine (M.bind_ok (receive_ok (b := _) rfl)).trans ?_
      have hs := hslt payload (by simp [hne'])
      simp only [hne'] at *
      simp [hs, enc, slots, txArgs, txData, M.pure_eq]
    | true =>
      simp only [if_true, if_pos hn1]
      refine (M.bind_ok (sendWords_ok (b := { mkBuf c g with send := (mkBuf c g).send ++ [hdrWord c.ver ⟨G1.n, .write inc addr (rest.take n), obj, k, 0, false⟩] ++ [addr] }) rfl (by simp; omega))).trans ?_
      refine (M.bind_ok (receive_ok (b := _) rfl)).trans ?_
      have hs := hslt (payload - BitVec.ofNat 32 (4 * n)) (by simp [hne'])
      simp only [hs]
      simp only [enc, slots, txArgs, txData, List.append_assoc, List.cons_append, List.nil_append, List.append_nil]
  · right
    exact ⟨e, s1, M.bind_exc h1, hF⟩


/-- A failure after some items have been queued. -/
theorem Failed.after {G G' : Gh} {o : Nat} {us us' : List Item} {e : Exc} {s s1 s' : St τ} (hR : RepW c P s1 G')
    (hE : Ext G G' o us) (hm : s.nObj ≤ s1.nObj) {o' : Nat} (hF : Failed c T Pe G' us' o' e s1 s') (ho : o ≤ o') :
    Failed c T Pe G (us ++ us') o e s s' := by
  obtain ⟨h1, h2, ⟨fs, new, h3, h4, h5, h6, h7, h10, h11, h12⟩, h8, h9⟩ := hF
  obtain ⟨⟨n1, a1, a2, a3, a4⟩, b1, b2, f1, b3⟩ := hE
  refine ⟨h1, h2, ⟨f1 ++ fs, n1 ++ new, ?_, ?_, ?_, ?_, ?_, ?_, ?_, ?_⟩, h8, by omega⟩
  · rw [h3, b2, b3, List.append_assoc]
  · intro f hf
    rw [List.mem_append] at hf
    rcases hf with hf | hf
    · refine ⟨hR.doneOK f (by rw [b3]; exact List.mem_append_right _ hf), ?_⟩
      intro it hit
      refine Nat.lt_of_lt_of_le (hR.objs it ?_) h9
      rw [Gh.all, List.mem_append, List.mem_flatMap]
      exact .inl ⟨f, by rw [b3]; exact List.mem_append_right _ hf, hit⟩
    · exact h4 f hf
  · rw [← List.append_assoc, ← b3, h5, a1, List.append_assoc]
  · rw [user_append, a2, h6]
  · rw [List.map_append, a3, h7, a4, List.length_append, List.range'_append_1]
  · rw [← List.append_assoc, ← b3]; exact h10
  · rw [← List.append_assoc, ← b3]; exact h11
  · rw [← List.append_assoc, ← b3]
    intro it hit
    rcases h12 it hit with h | h
    · exact b1 it h
    · exact .inr (by omega)

theorem Failed.weaken {G : Gh} {us : List Item} {e : Exc} {o o' : Nat} {s s' : St τ} (hF : Failed c T Pe G us o' e s s')
    (ho : o ≤ o') : Failed c T Pe G us o e s s' := by
  obtain ⟨h1, h2, ⟨fs, new, h3, h4, h5, h6, h7, h10, h11, h12⟩, h8, h9⟩ := hF
  exact ⟨h1, h2, ⟨fs, new, h3, h4, h5, h6, h7, h10, h11, fun it hit => (h12 it hit).imp id (Nat.le_trans ho)⟩, h8, h9⟩

theorem writeBlockLoop_spec (hw : WF c) (hT : TOK c T P F Pe) (inc : Bool) (obj : Nat) (ne : Bool) (fuel : Nat) :
    ∀ {s : St τ} {G : Gh} (_ : Rep c P F s G) (k : Nat) (rest : List W) (addr payload : W)
      (_ : ne = false → rest = []) (_ : payload.toNat = 4 * rest.length) (_ : payload.toNat < 2 ^ 31)
      (_ : rest.length < fuel) (_ : obj < s.nObj) (_ : Below G obj k 0),
    (∃ s' G' its chs,
      (writeBlockLoop c T (if inc then .write else .niWrite) inc ne obj fuel k rest addr payload >>= fun _ => addMem obj) s
        = .ok () s' ∧ Rep c P F s' G' ∧ Ext G G' obj its ∧ s.nObj ≤ s'.nObj ∧
      its.map Item.txn = wtxns inc addr chs ∧ chs.flatten = rest ∧ (rest ≠ [] → ∀ ch ∈ chs, ch ≠ []) ∧
      (∀ ch ∈ chs, ch.length < 2 ^ wcBits c.ver) ∧ Tiles obj k 0 its ∧ (rest = [] → its.length = 1)) ∨
    (∃ e s' us chs,
      (writeBlockLoop c T (if inc then .write else .niWrite) inc ne obj fuel k rest addr payload >>= fun _ => addMem obj) s
        = .exc e s' ∧ Failed c T Pe G us obj e s s' ∧ us.map Item.txn = wtxns inc addr chs ∧ chs.flatten <+: rest) := by
  induction fuel with
  | zero => intro s G hR k rest addr payload h1 h2 h3 h4; omega
  | succ fuel ih =>
    intro s G hR k rest addr payload hne hpay hlt hfuel hobj hB
    rcases writeBlockLoop_step hw hT hR inc obj k rest addr payload ne hne fuel hpay hlt with
      ⟨s1, G1, g, n, hR1, hg, hO, hn1, hn2, hn3, hn4, hn5, he⟩ | ⟨e, s', he, hF⟩
    · rw [M.bind_congr he]
      have hB1 := below_opens hB hO hobj
      have hmono := hO.mono
      have hleg : txLegal c.ver (.write inc addr (rest.take n)) := by
        refine ⟨by cases hv : c.ver <;> cases inc <;> simp [supported, txTy], ?_⟩
        simp [txWC]; omega
      have htl : (rest.take n).length = n := by simp; omega
      by_cases hcont : n < rest.length
      · rw [if_pos hcont]
        have hrne : rest ≠ [] := by intro h; subst h; simp at hcont
        have hnpos := hn2 hrne
        have hp := mkBuf_push c g ⟨G1.n, .write inc addr (rest.take n), obj, k, 0, false⟩
        simp only [Bool.false_eq_true, if_false, List.append_nil] at hp
        rw [← hp]
        have hR2 := rep_push (F := F) hR1 hg ⟨G1.n, .write inc addr (rest.take n), obj, k, 0, false⟩ (by simp) hleg
          (o' := s1.nObj) (by simp only; omega) (Nat.le_refl _) (below_fresh hB1 rfl rfl rfl) (below_last hB1 rfl)
          (by rw [enc_length]; simp [txArgs, htl]; omega) (by simp [replyLen, txData]; omega)
        have hB2 := below_push hg (it := ⟨G1.n, .write inc addr (rest.take n), obj, k, 0, false⟩) hB1 rfl rfl rfl (G1.n + 1)
        have hE2 := (hO.ext.weaken (Nat.le_of_lt hobj)).trans
          (push_ext hg ⟨G1.n, .write inc addr (rest.take n), obj, k, 0, false⟩ rfl (by simp) (o := obj) (by simp)) (Nat.le_refl _)
        have hpay' : (payload - BitVec.ofNat 32 (4 * n)).toNat = 4 * (rest.drop n).length := by
          rw [BitVec.toNat_sub, BitVec.toNat_ofNat]; simp; omega
        rcases ih hR2 (k + 1) (rest.drop n) (if inc then addr + BitVec.ofNat 32 n else addr)
          (payload - BitVec.ofNat 32 (4 * n)) (fun h => absurd (hne h) hrne) hpay' (by rw [hpay', List.length_drop]; omega) (by rw [List.length_drop]; omega)
          (by simp only; omega) hB2 with
          ⟨s', G', its, chs, r1, r2, r3, r4, r5, r6, r7, r8, r9, r10⟩ | ⟨e, s', us, chs, r1, r2, r3, r4⟩
        · left
          refine ⟨s', G', _ :: its, rest.take n :: chs, r1, r2, hE2.trans r3 (Nat.le_refl _), Nat.le_trans hmono r4, ?_, ?_, ?_, ?_, ?_, ?_⟩
          · simp only [List.nil_append, List.map_cons, wtxns, htl, List.cons.injEq, true_and]; exact r5
          · simp [r6]
          · intro _ ch hch
            rw [List.mem_cons] at hch
            rcases hch with rfl | hch
            · intro h; rw [h] at htl; simp at htl; omega
            · exact r7 (by intro h; have := congrArg List.length h; simp at this; omega) ch hch
          · intro ch hch
            rw [List.mem_cons] at hch
            rcases hch with rfl | hch
            · omega
            · exact r8 ch hch
          · exact r9.cons rfl rfl rfl rfl
          · intro h; exact absurd h hrne
        · right
          refine ⟨e, s', _ :: us, rest.take n :: chs, r1, Failed.after hR2.toRepW hE2 hmono r2 (Nat.le_refl _), ?_, ?_⟩
          · simp only [List.nil_append, List.map_cons, wtxns, htl, List.cons.injEq, true_and]; exact r3
          · rw [List.flatten_cons]
            obtain ⟨t, ht⟩ := r4
            exact ⟨t, by rw [List.append_assoc, ht, List.take_append_drop]⟩
      · rw [if_neg hcont]
        left
        have hrt : rest.take n = rest := List.take_of_length_le (by omega)
        rw [hrt] at hleg ⊢
        have hp := mkBuf_push c g ⟨G1.n, .write inc addr rest, obj, k, 0, true⟩
        simp only [if_true] at hp
        have hR2 := rep_push (F := F) hR1 hg ⟨G1.n, .write inc addr rest, obj, k, 0, true⟩ (by simp) hleg
          (o' := s1.nObj) (by simp only; omega) (Nat.le_refl _) (below_fresh hB1 rfl rfl rfl) (below_last hB1 rfl)
          (by rw [enc_length]; simp [txArgs]; omega) (by simp [replyLen, txData]; omega)
        have hE2 := (hO.ext.weaken (Nat.le_of_lt hobj)).trans
          (push_ext hg ⟨G1.n, .write inc addr rest, obj, k, 0, true⟩ rfl (by simp) (o := obj) (by simp)) (Nat.le_refl _)
        refine ⟨_, _, [⟨G1.n, .write inc addr rest, obj, k, 0, true⟩], [rest], ?_, hR2, hE2, hmono, ?_, ?_, ?_, ?_, ?_, fun _ => rfl⟩
        · refine (M.bind_ok (M.pure_eq _ _)).trans ?_
          refine (addMem_ok (b := _) rfl).trans ?_
          rw [hp]; rfl
        · simp [wtxns]
        · simp
        · intro h ch hch; simp at hch; subst hch; exact h
        · intro ch hch; simp at hch; subst hch; omega
        · simp [Tiles]
    · right
      exact ⟨e, s', [], [], M.bind_exc he, hF.weaken (Nat.le_of_lt hobj), rfl, List.nil_prefix⟩

theorem implementWriteBlock_spec (hw : WF c) (hT : TOK c T P F Pe) {s : St τ} {G : Gh} (hR : Rep c P F s G)
    (addr : W) (src : List W) (inc : Bool) (hlen : 4 * src.length < 2 ^ 31) :
    (∃ s' G' its chs, implementWriteBlock c T addr src inc s = .ok (.hdr s.nObj) s' ∧ Rep c P F s' G' ∧
      Ext G G' s.nObj its ∧ s.nObj ≤ s'.nObj ∧
      its.map Item.txn = wtxns inc addr chs ∧ chs.flatten = src ∧ (src ≠ [] → ∀ ch ∈ chs, ch ≠ []) ∧
      (∀ ch ∈ chs, ch.length < 2 ^ wcBits c.ver) ∧ Tiles s.nObj 0 0 its ∧ (src = [] → its.length = 1)) ∨
    (∃ e s' us chs, implementWriteBlock c T addr src inc s = .exc e s' ∧ Failed c T Pe G us s.nObj e s s' ∧
      us.map Item.txn = wtxns inc addr chs ∧ chs.flatten <+: src) := by
  have hR0 : Rep c P F { s with nObj := s.nObj + 1 } G :=
    ⟨⟨hR.hist, hR.cur, hR.ctr, hR.curOK, hR.doneOK, fun it hit => Nat.lt_succ_of_lt (hR.objs it hit), hR.nodup, hR.last, hR.ks, hR.inv⟩, hR.ne, hR.fl⟩
  have hB : Below G s.nObj 0 0 := by
    intro it hit he; have := hR.objs it hit; omega
  have hpay : (BitVec.ofNat 32 (src.length * 4)).toNat = 4 * src.length := by
    rw [BitVec.toNat_ofNat]; omega
  have hne : (!src.isEmpty) = false → src = [] := by cases src <;> simp
  have hrun : ∀ r, (writeBlockLoop c T (if inc then .write else .niWrite) inc (!src.isEmpty) s.nObj (src.length + 1) 0 src addr
      (BitVec.ofNat 32 (src.length * 4)) >>= fun _ => addMem s.nObj) { s with nObj := s.nObj + 1 } = r →
      implementWriteBlock c T addr src inc s = (match r with
        | .ok _ s' => .ok (.hdr s.nObj) s' | .exc e s' => .exc e s' | .ub => .ub | .loops => .loops) := by
    intro r hr
    subst hr
    have hal : alloc (τ := τ) s = .ok s.nObj { s with nObj := s.nObj + 1 } := rfl
    unfold implementWriteBlock
    refine (M.bind_ok hal).trans ?_
    simp only [bind, M.bind]
    split <;> simp_all
    split <;> simp_all [pure, M.pure]
  rcases writeBlockLoop_spec hw hT inc s.nObj (!src.isEmpty) (src.length + 1) hR0 0 src addr (BitVec.ofNat 32 (src.length * 4))
      hne hpay (by omega) (by omega) (Nat.lt_succ_self _) hB with
    ⟨s', G', its, chs, r1, r2, r3, r4, r5, r6, r7, r8, r9, r10⟩ | ⟨e, s', us, chs, r1, r2, r3, r4⟩
  · left
    refine ⟨s', G', its, chs, hrun _ r1, r2, r3, ?_, r5, r6, r7, r8, r9, r10⟩
    simp only at r4; omega
  · right
    refine ⟨e, s', us, chs, hrun _ r1, ?_, r3, r4⟩
    obtain ⟨h1, h2, h3, h4, h5⟩ := r2
    exact ⟨h1, h2, h3, h4, by simp only at h5; omega⟩


/-- One turn of the loop of `implementReadBlock`; `r` words remain. -/
theorem readBlockLoop_step (hw : WF c) (hT : TOK c T P F Pe) {s : St τ} {G : Gh} (hR : Rep c P F s G)
    (inc : Bool) (obj size k off r : Nat) (addr payload : W) (fuel : Nat)
    (hpay : payload.toNat = 4 * r) (hlt : payload.toNat < 2 ^ 31) (hsz : off + r = size) :
    (∃ s1 G1 g n, RepW c P s1 G1 ∧ G1.cur = some g ∧ Opens G G1 s.nObj s1.nObj ∧
      n ≤ r ∧ (r ≠ 0 → 0 < n) ∧ n < 2 ^ wcBits c.ver ∧
      4 * ((mkBuf c g).send.length + 2) ≤ c.maxSend.toNat ∧
      4 * ((mkBuf c g).replyWords + (1 + n)) ≤ c.maxReply.toNat ∧
      readBlockLoop c T (if inc then .read else .niRead) inc obj size (fuel + 1) k off addr payload s =
        (if n < r then
          readBlockLoop c T (if inc then .read else .niRead) inc obj size fuel (k + 1) (off + n)
            (if inc then addr + BitVec.ofNat 32 n else addr) (payload - BitVec.ofNat 32 (4 * n))
         else pure ())
        { s1 with
          cur := some { send := (mkBuf c g).send ++ enc c.ver ⟨G1.n, .read inc addr n, obj, k, off, false⟩
                        reply := (mkBuf c g).reply ++ slots ⟨G1.n, .read inc addr n, obj, k, off, false⟩
                        adds := (mkBuf c g).adds }
          ctr := BitVec.ofNat 32 (G1.n + 1) }) ∨
    (∃ e s', readBlockLoop c T (if inc then .read else .niRead) inc obj size (fuel + 1) k off addr payload s = .exc e s' ∧
      Failed c T Pe G [] s.nObj e s s') := by
  rw [readBlockLoop]
  rcases cbs_spec hw hT hR 8 (4#32 + payload) with ⟨s1, G1, g, aS, aR, h1, hR1, hg, hO, hgr⟩ | ⟨e, s1, h1, hF⟩
  · left
    have hreq : (4#32 + payload).toNat = 4 + 4 * r := by
      rw [BitVec.toNat_add]; simp; omega
    have h4 : (4 : W).toNat = 4 := rfl
    have hov : (8 : W).toNat = 8 := rfl
    obtain ⟨n, hn, hn1, hn2, hn3, hn4, hn5⟩ : ∃ n, payloadBytes c aR 4 = BitVec.ofNat 32 (4 * n) ∧ n ≤ r ∧
        (r ≠ 0 → 0 < n) ∧ n < 2 ^ wcBits c.ver ∧ 4 * ((mkBuf c g).send.length + 2) ≤ c.maxSend.toNat ∧
        4 * ((mkBuf c g).replyWords + (1 + n)) ≤ c.maxReply.toNat := by
      have hwc : 2 ^ 8 ≤ 2 ^ wcBits c.ver ∧ 2 ^ wcBits c.ver ≤ 2 ^ 9 := by cases c.ver <;> simp [wcBits]
      have h8 : (4 : W).toNat ≤ aR.toNat := by
        rcases hgr with ⟨_, rfl, _⟩ | h <;> omega
      have hp := payloadBytes_toNat c aR 4 h8
      refine ⟨min (2 ^ wcBits c.ver - 1) ((aR.toNat - 4) / 4), ?_, ?_⟩
      · apply BitVec.eq_of_toNat_eq
        rw [hp, BitVec.toNat_ofNat]
        have := aR.isLt
        omega
      · rcases hgr with ⟨rfl, rfl, h2, h3⟩ | ⟨h2, h3, h5, h6, h7⟩
        · rw [hreq] at *
          refine ⟨by omega, fun h => by omega, by omega, by omega, by omega⟩
        · rw [hreq] at *
          refine ⟨by omega, fun h => by omega, by omega, by omega, by omega⟩
    refine ⟨s1, G1, g, n, hR1, hg, hO, hn1, hn2, hn3, hn4, hn5, ?_⟩
    have hb : s1.cur = some (mkBuf c g) := by rw [hR1.cur, hg]; rfl
    have hsh : (BitVec.ofNat 32 (4 * n)) >>> 2 = BitVec.ofNat 32 n := by
      apply BitVec.eq_of_toNat_eq
      rw [BitVec.toNat_ushiftRight, Nat.shiftRight_eq_div_pow, BitVec.toNat_ofNat, BitVec.toNat_ofNat]
      omega
    have hdiv : (BitVec.ofNat 32 (4 * n)).toNat / 4 = n := by
      rw [BitVec.toNat_ofNat]; omega
    have hleg : txLegal c.ver (.read inc addr n) := by
      refine ⟨by cases hv : c.ver <;> cases inc <;> simp [supported, txTy], ?_⟩
      simp [txWC]; omega
    have hh := hdrWord_spec (it := ⟨G1.n, .read inc addr n, obj, k, off, false⟩) hleg
    have hty : txTy (.read inc addr n) = if inc then .read else .niRead := by cases inc <;> rfl
    simp only [hty, txWC] at hh
    have hslt : (0#32).slt (payload - BitVec.ofNat 32 (4 * n)) = true ↔ n < r := by
      rw [slt_zero_iff, BitVec.toNat_sub, BitVec.toNat_ofNat]
      omega
    rw [M.bind_ok h1]
    simp only [hn, hsh, hdiv]
    have hc := hR1.ctr
    refine (M.bind_ok (sendHeader_ok hb hc hh (by omega))).trans ?_
    refine (M.bind_ok (sendWords_ok (b := { mkBuf c g with send := (mkBuf c g).send ++ [hdrWord c.ver ⟨G1.n, .read inc addr n, obj, k, off, false⟩] }) rfl (by simp; omega))).trans ?_
    refine (M.bind_ok (receive_ok (b := _) rfl)).trans ?_
    rw [if_pos (by omega)]
    refine (M.bind_ok (receive_ok (b := _) rfl)).trans ?_
    simp only [hslt]
    simp only [enc, slots, txArgs, txData, List.append_assoc, List.cons_append, List.nil_append, List.append_nil]
  · right
    exact ⟨e, s1, M.bind_exc h1, hF⟩

theorem readBlockLoop_spec (hw : WF c) (hT : TOK c T P F Pe) (inc : Bool) (obj size : Nat) (fuel : Nat) :
    ∀ {s : St τ} {G : Gh} (_ : Rep c P F s G) (k off r : Nat) (addr payload : W)
      (_ : payload.toNat = 4 * r) (_ : payload.toNat < 2 ^ 31) (_ : off + r = size)
      (_ : r < fuel) (_ : obj < s.nObj) (_ : Below G obj k off),
    (∃ s' G' its ns,
      (readBlockLoop c T (if inc then .read else .niRead) inc obj size fuel k off addr payload >>= fun _ => addMem obj) s
        = .ok () s' ∧ Rep c P F s' G' ∧ Ext G G' obj its ∧ s.nObj ≤ s'.nObj ∧
      its.map Item.txn = rtxns inc addr ns ∧ ns.sum = r ∧ (r ≠ 0 → ∀ n ∈ ns, n ≠ 0) ∧
      (∀ n ∈ ns, n < 2 ^ wcBits c.ver) ∧ Tiles obj k off its ∧ (r = 0 → its.length = 1)) ∨
    (∃ e s' us ns,
      (readBlockLoop c T (if inc then .read else .niRead) inc obj size fuel k off addr payload >>= fun _ => addMem obj) s
        = .exc e s' ∧ Failed c T Pe G us obj e s s' ∧ us.map Item.txn = rtxns inc addr ns ∧ ns.sum ≤ r) := by
  induction fuel with
  | zero => intro s G hR k off r addr payload h1 h2 h3 h4; omega
  | succ fuel ih =>
    intro s G hR k off r addr payload hpay hlt hsz hfuel hobj hB
    rcases readBlockLoop_step hw hT hR inc obj size k off r addr payload fuel hpay hlt hsz with
      ⟨s1, G1, g, n, hR1, hg, hO, hn1, hn2, hn3, hn4, hn5, he⟩ | ⟨e, s', he, hF⟩
    · rw [M.bind_congr he]
      have hB1 := below_opens hB hO hobj
      have hmono := hO.mono
      have hleg : txLegal c.ver (.read inc addr n) := by
        refine ⟨by cases hv : c.ver <;> cases inc <;> simp [supported, txTy], ?_⟩
        simp [txWC]; omega
      by_cases hcont : n < r
      · rw [if_pos hcont]
        have hnpos := hn2 (by omega)
        have hp := mkBuf_push c g ⟨G1.n, .read inc addr n, obj, k, off, false⟩
        simp only [Bool.false_eq_true, if_false, List.append_nil] at hp
        rw [← hp]
        have hR2 := rep_push (F := F) hR1 hg ⟨G1.n, .read inc addr n, obj, k, off, false⟩ (by simp) hleg
          (o' := s1.nObj) (by simp only; omega) (Nat.le_refl _) (below_fresh hB1 rfl rfl rfl) (below_last hB1 rfl)
          (by rw [enc_length]; simp [txArgs]; omega) (by simp [replyLen, txData]; omega)
        have hB2 := below_push hg (it := ⟨G1.n, .read inc addr n, obj, k, off, false⟩) hB1 rfl rfl rfl (G1.n + 1)
        have hE2 := (hO.ext.weaken (Nat.le_of_lt hobj)).trans
          (push_ext hg ⟨G1.n, .read inc addr n, obj, k, off, false⟩ rfl (by simp) (o := obj) (by simp)) (Nat.le_refl _)
        have hpay' : (payload - BitVec.ofNat 32 (4 * n)).toNat = 4 * (r - n) := by
          rw [BitVec.toNat_sub, BitVec.toNat_ofNat]; omega
        rcases ih hR2 (k + 1) (off + n) (r - n) (if inc then addr + BitVec.ofNat 32 n else addr)
          (payload - BitVec.ofNat 32 (4 * n)) hpay' (by omega) (by omega) (by omega)
          (by simp only; omega) hB2 with
          ⟨s', G', its, ns, r1, r2, r3, r4, r5, r6, r7, r8, r9, r10⟩ | ⟨e, s', us, ns, r1, r2, r3, r4⟩
        · left
          refine ⟨s', G', _ :: its, n :: ns, r1, r2, hE2.trans r3 (Nat.le_refl _), Nat.le_trans hmono r4, ?_, ?_, ?_, ?_, ?_, ?_⟩
          · simp only [List.nil_append, List.map_cons, rtxns, List.cons.injEq, true_and]; exact r5
          · simp only [List.sum_cons]; omega
          · intro _ m hm
            rw [List.mem_cons] at hm
            rcases hm with rfl | hm
            · omega
            · exact r7 (by omega) m hm
          · intro m hm
            rw [List.mem_cons] at hm
            rcases hm with rfl | hm
            · omega
            · exact r8 m hm
          · exact r9.cons rfl rfl rfl rfl
          · intro h; omega
        · right
          refine ⟨e, s', _ :: us, n :: ns, r1, Failed.after hR2.toRepW hE2 hmono r2 (Nat.le_refl _), ?_, ?_⟩
          · simp only [List.nil_append, List.map_cons, rtxns, List.cons.injEq, true_and]; exact r3
          · simp only [List.sum_cons]; omega
      · rw [if_neg hcont]
        left
        have hnr : n = r := by omega
        subst hnr
        have hp := mkBuf_push c g ⟨G1.n, .read inc addr n, obj, k, off, true⟩
        simp only [if_true] at hp
        have hR2 := rep_push (F := F) hR1 hg ⟨G1.n, .read inc addr n, obj, k, off, true⟩ (by simp) hleg
          (o' := s1.nObj) (by simp only; omega) (Nat.le_refl _) (below_fresh hB1 rfl rfl rfl) (below_last hB1 rfl)
          (by rw [enc_length]; simp [txArgs]; omega) (by simp [replyLen, txData]; omega)
        have hE2 := (hO.ext.weaken (Nat.le_of_lt hobj)).trans
          (push_ext hg ⟨G1.n, .read inc addr n, obj, k, off, true⟩ rfl (by simp) (o := obj) (by simp)) (Nat.le_refl _)
        refine ⟨_, _, [⟨G1.n, .read inc addr n, obj, k, off, true⟩], [n], ?_, hR2, hE2, hmono, ?_, ?_, ?_, ?_, ?_, fun _ => rfl⟩
        · refine (M.bind_ok (M.pure_eq _ _)).trans ?_
          refine (addMem_ok (b := _) rfl).trans ?_
          rw [hp]; rfl
        · simp [rtxns]
        · simp
        · intro h m hm; simp at hm; omega
        · intro m hm; simp at hm; omega
        · simp [Tiles]
    · right
      exact ⟨e, s', [], [], M.bind_exc he, hF.weaken (Nat.le_of_lt hobj), rfl, by simp⟩

theorem implementReadBlock_spec (hw : WF c) (hT : TOK c T P F Pe) {s : St τ} {G : Gh} (hR : Rep c P F s G)
    (addr size : W) (inc : Bool) (hlen : 4 * size.toNat < 2 ^ 31) :
    (∃ s' G' its ns, implementReadBlock c T addr size inc s = .ok (.vec s.nObj size.toNat) s' ∧ Rep c P F s' G' ∧
      Ext G G' s.nObj its ∧ s.nObj ≤ s'.nObj ∧
      its.map Item.txn = rtxns inc addr ns ∧ ns.sum = size.toNat ∧ (size.toNat ≠ 0 → ∀ n ∈ ns, n ≠ 0) ∧
      (∀ n ∈ ns, n < 2 ^ wcBits c.ver) ∧ Tiles s.nObj 0 0 its ∧ (size.toNat = 0 → its.length = 1)) ∨
    (∃ e s' us ns, implementReadBlock c T addr size inc s = .exc e s' ∧ Failed c T Pe G us s.nObj e s s' ∧
      us.map Item.txn = rtxns inc addr ns ∧ ns.sum ≤ size.toNat) := by
  have hR0 : Rep c P F { s with nObj := s.nObj + 1 } G :=
    ⟨⟨hR.hist, hR.cur, hR.ctr, hR.curOK, hR.doneOK, fun it hit => Nat.lt_succ_of_lt (hR.objs it hit), hR.nodup, hR.last, hR.ks, hR.inv⟩, hR.ne, hR.fl⟩
  have hB : Below G s.nObj 0 0 := by
    intro it hit he; have := hR.objs it hit; omega
  have hpay : (size <<< 2).toNat = 4 * size.toNat := by
    rw [BitVec.toNat_shiftLeft, Nat.shiftLeft_eq]; omega
  have hrun : ∀ r, (readBlockLoop c T (if inc then .read else .niRead) inc s.nObj size.toNat (size.toNat + 1) 0 0 addr
      (size <<< 2) >>= fun _ => addMem s.nObj) { s with nObj := s.nObj + 1 } = r →
      implementReadBlock c T addr size inc s = (match r with
        | .ok _ s' => .ok (.vec s.nObj size.toNat) s' | .exc e s' => .exc e s' | .ub => .ub | .loops => .loops) := by
    intro r hr
    subst hr
    have hal : alloc (τ := τ) s = .ok s.nObj { s with nObj := s.nObj + 1 } := rfl
    unfold implementReadBlock
    refine (M.bind_ok hal).trans ?_
    simp only [bind, M.bind]
    split <;> simp_all
    split <;> simp_all [pure, M.pure]
  rcases readBlockLoop_spec hw hT inc s.nObj size.toNat (size.toNat + 1) hR0 0 0 size.toNat addr (size <<< 2)
      hpay (by omega) (by omega) (by omega) (Nat.lt_succ_self _) hB with
    ⟨s', G', its, ns, r1, r2, r3, r4, r5, r6, r7, r8, r9, r10⟩ | ⟨e, s', us, ns, r1, r2, r3, r4⟩
  · left
    refine ⟨s', G', its, ns, hrun _ r1, r2, r3, ?_, r5, r6, r7, r8, r9, r10⟩
    simp only at r4; omega
  · right
    refine ⟨e, s', us, ns, hrun _ r1, ?_, r3, r4⟩
    obtain ⟨h1, h2, h3, h4, h5⟩ := r2
    exact ⟨h1, h2, h3, h4, by simp only at h5; omega⟩

/-- `dispatch`. -/
theorem dispatch_spec (hw : WF c) (hT : TOK c T P F Pe) {s : St τ} {G : Gh} (hR : Rep c P F s G) :
    (∃ s' G', clientDispatch c T s = .ok () s' ∧ Rep c P F s' G' ∧ Ext G G' s.nObj [] ∧ s.nObj ≤ s'.nObj ∧
      G'.cur = none) ∨
    (∃ e s', clientDispatch c T s = .exc e s' ∧ Failed c T Pe G [] s.nObj e s s') := by
  unfold clientDispatch
  cases hc : G.cur with
  | none =>
    left
    have : s.cur = none := by rw [hR.cur, hc]; rfl
    exact ⟨s, G, by simp [withHandler, this], hR, Ext.refl G _, Nat.le_refl _, hc⟩
  | some g =>
    have hb : s.cur = some (mkBuf c g) := by rw [hR.cur, hc]; rfl
    rcases rep_close hw hT hR.toRepW hc (fun h => hR.ne h g hc) with ⟨s2, f, hd, hf, hR2, hfa, hno, hnp⟩ | ⟨e, s2, t, hd, hpe, ht, ⟨f, hh, hfo, hfg, hfob, hfn, hfl, hfa⟩, hno, hnp⟩
    · have hfl := hT.flush s2.hist s2.tr hR2.inv
      have hE : Ext G { G with done := G.done ++ [f], cur := none } s.nObj [] := by
        refine ⟨⟨[], by simp [Gh.items, hc, hf], rfl, rfl, rfl⟩, ?_, rfl, ⟨[f], rfl⟩⟩
        intro it hit
        simp only [Gh.all, hc, List.flatMap_append, List.mem_append] at hit ⊢
        rcases hit with (hit | hit) | hit
        · exact .inl (.inl hit)
        · rcases hfa it (by simpa using hit) with h | h
          · exact .inl (.inr (by simpa using h))
          · exact .inr h
        · simp at hit
      cases hfr : T.flush s2.tr with
      | ok u t' =>
        rw [hfr] at hfl
        left
        refine ⟨{ s2 with tr := t' }, { G with done := G.done ++ [f], cur := none }, ?_, ?_, hE, hno, rfl⟩
        · simp only [withHandler, hb]
          rw [M.bind_ok hd]; simp only [hfr]
        · exact ⟨⟨hR2.hist, hR2.cur, hR2.ctr, hR2.curOK, hR2.doneOK, hR2.objs, hR2.nodup, hR2.last, hR2.ks, hfl.1⟩, by simp, fun _ => hfl.2⟩
      | exc e t' =>
        rw [hfr] at hfl
        right
        refine ⟨e, exceptionHandler T { s2 with tr := t' }, ?_, ⟨rfl, rfl, ⟨[f], [], ?_, ?_, ?_, rfl, rfl, ?_, ?_, ?_⟩, ⟨t', rfl, hfl⟩, hno⟩⟩
        · simp only [withHandler, hb]
          rw [M.bind_ok hd]; simp only [hfr]
        · exact hR2.hist
        · intro f' hf'; simp at hf'; subst hf'; exact ⟨hR2.doneOK _ (by simp), fun it hit => hR2.objs it (by simp [Gh.all]; exact .inr hit)⟩
        · simp [Gh.items, hc, hf]
        · simpa [Gh.all] using hR2.nodup
        · simpa [Gh.all] using hR2.last
        · intro it hit; exact hE.all it (by simpa [Gh.all] using hit)
      | ub => rw [hfr] at hfl; exact hfl.elim
      | loops => rw [hfr] at hfl; exact hfl.elim
    · right
      refine ⟨e, exceptionHandler T s2, ?_, ⟨rfl, rfl, ⟨[f], [], hh, ?_, ?_, rfl, rfl, hfn, hfl, hfa⟩, ⟨t, by simp [exceptionHandler, ht], ht ▸ hpe⟩, hno⟩⟩
      · simp only [withHandler, hb]
        rw [M.bind_exc hd]
      · intro f' hf'; simp at hf'; subst hf'; exact ⟨hfo, hfob⟩
      · simp [Gh.items, hc, hfg]

end
end Verif
