import Verif.Lemmas.Link
import Verif.Model.ValMem
import Verif.Spec.Seq
import Verif.Props.C15
/-! The client over a target that answers every packet. -/

set_option autoImplicit false
set_option linter.unusedSimpArgs false

namespace Verif
open Spec

/-! ### Execution -/

section
variable {σ : Type} (v : Ver) (tg : Target σ)

theorem execAccs_append (a b : List Acc) (m : σ) : execAccs v tg (a ++ b) m =
    ((execAccs v tg a m).1 ++ (execAccs v tg b (execAccs v tg a m).2).1, (execAccs v tg b (execAccs v tg a m).2).2) := by
  induction a generalizing m with
  | nil => simp [execAccs]
  | cons x a ih => simp [execAccs, ih]

theorem execTxns_append (a b : List Txn) (m : σ) : execTxns v tg (a ++ b) m =
    ((execTxns v tg a m).1 ++ (execTxns v tg b (execTxns v tg a m).2).1, (execTxns v tg b (execTxns v tg a m).2).2) := by
  induction a generalizing m with
  | nil => simp [execTxns]
  | cons x a ih => simp [execTxns, ih]

theorem execTxns_length (a : List Txn) (m : σ) : (execTxns v tg a m).1.length = a.length := by
  induction a generalizing m with
  | nil => simp [execTxns]
  | cons x a ih => simp [execTxns, ih]

theorem execTxns_flatten (a : List Txn) (m : σ) :
    execAccs v tg (a.flatMap Txn.accs) m = ((execTxns v tg a m).1.flatten, (execTxns v tg a m).2) := by
  induction a generalizing m with
  | nil => simp [execTxns, execAccs]
  | cons x a ih => simp [execTxns, execAccs_append, ih]

theorem execAccs_rd_length (as : List W) (m : σ) : (execAccs v tg (as.map .rd) m).1.length = as.length := by
  induction as generalizing m with
  | nil => rfl
  | cons a as ih => simp [execAccs, Acc.exec, ih]

theorem execAccs_cfg_length (as : List W) (m : σ) : (execAccs v tg (as.map .cfg) m).1.length = as.length := by
  induction as generalizing m with
  | nil => rfl
  | cons a as ih => simp [execAccs, Acc.exec, ih]

theorem execAccs_wr_nil (as ds : List W) (m : σ) : (execAccs v tg (List.zipWith .wr as ds) m).1 = [] := by
  induction as generalizing m ds with
  | nil => rfl
  | cons a as ih =>
    cases ds with
    | nil => rfl
    | cons d ds => simp [execAccs, Acc.exec, ih]

theorem execAccs_txn_length (t : Txn) (m : σ) : (execAccs v tg t.accs m).1.length = (txData t).getD 0 := by
  cases t with
  | bot => rfl
  | read inc a n => rw [Txn.accs, execAccs_rd_length, addrs_length]; rfl
  | write inc a ds => rw [Txn.accs, execAccs_wr_nil]; rfl
  | rmwBits a x o => rfl
  | rmwSum a x => rfl
  | cfgRead a n => rw [Txn.accs, execAccs_cfg_length, addrs_length]; rfl

end

/-! ### What the memory holds -/

/-- The words of an item. -/
def Holds (rd : Loc → W) (it : Item) (vals : List W) : Prop :=
  vals = (List.range ((txData it.txn).getD 0)).map fun i => rd (.data it.obj (it.off + i))

/-- Id and transaction of an item on the wire. -/
def onWire (v : Ver) (it : Item) : Nat × Txn := (it.cnt % 2 ^ idBits v, it.txn)

section
variable {σ : Type} {tg : Target σ}

theorem body_length {v : Ver} (its : List Item) (m : σ) (body : List W)
    (h : ReplyBody v (its.map (onWire v)) (execTxns v tg (its.map Item.txn) m).1 body) :
    body.length = (its.flatMap itemLocs).length := by
  induction its generalizing m body with
  | nil => cases h; rfl
  | cons it its ih =>
    simp only [List.map_cons, execTxns] at h
    generalize hr : execAccs v tg it.txn.accs m = r at h
    generalize hq : execTxns v tg (its.map Item.txn) r.2 = q at h
    cases h with
    | cons hh ht =>
      rw [← hq] at ht
      have := ih _ _ ht
      have hl := execAccs_txn_length v tg it.txn m
      rw [hr] at hl
      simp [itemLocs, hl, this] at *

theorem body_items {v : Ver} (rd : Loc → W) (its : List Item) (m : σ) (body : List W)
    (h : ReplyBody v (its.map (onWire v)) (execTxns v tg (its.map Item.txn) m).1 body)
    (hb : (its.flatMap itemLocs).map rd = body) :
    (∀ it ∈ its, HeaderOK v (it.cnt % 2 ^ idBits v) it.txn.ty (rd (.hdr it.obj it.hk))) ∧
      ∀ p ∈ its.zip (execTxns v tg (its.map Item.txn) m).1, Holds rd p.1 p.2 := by
  induction its generalizing m body with
  | nil => simp
  | cons it its ih =>
    simp only [List.map_cons, execTxns] at h ⊢
    have hl := execAccs_txn_length v tg it.txn m
    generalize hr : execAccs v tg it.txn.accs m = r at h hl ⊢
    generalize hq : execTxns v tg (its.map Item.txn) r.2 = q at h ⊢
    cases h with
    | cons hh ht =>
      rw [← hq] at ht
      simp only [List.flatMap_cons, List.map_append, itemLocs, List.map_cons, List.cons_append, List.map_map] at hb
      injection hb with hb1 hb2
      have hb3 := List.append_inj hb2 (by simp [hl])
      obtain ⟨i1, i2⟩ := ih _ _ ht hb3.2
      constructor
      · intro x hx
        simp only [List.mem_cons] at hx
        rcases hx with rfl | hx
        · rw [hb1]; exact hh
        · exact i1 x hx
      · intro p hp
        simp only [List.zip_cons_cons, List.mem_cons] at hp
        rcases hp with rfl | hp
        · exact hb3.1.symm
        · rw [← hq] at hp; exact i2 p hp

theorem replyPre_length {c : Cfg} {f : Fin'} {pre : List W} (hp : ReplyPre c (f.buf c).send pre) :
    pre.length = preSlotCount c := by
  obtain ⟨hub, pkt, rfl, h1, h2⟩ := hp
  have hs : c.ver = .v2 → ∃ h t, ipbusPart c.hub (f.buf c).send = h :: t := by
    intro hv
    unfold Fin'.buf
    rw [patch_ipbus, mkBuf_ipbus, hv]
    exact ⟨_, _, rfl⟩
  unfold preSlotCount
  rw [List.length_append]
  congr 1
  · cases hh : c.hub with
    | none => rw [hh] at h1; simp only at h1; subst h1; rfl
    | some x => rw [hh] at h1; obtain ⟨y, rfl⟩ := h1; rfl
  · cases hv : c.ver with
    | v1 => rw [hv] at h2; simp only at h2; subst h2; rfl
    | v2 =>
      rw [hv] at h2; simp only at h2; subst h2
      obtain ⟨h, t, ht⟩ := hs hv
      rw [ht]; rfl


theorem scatter_body {c : Cfg} {f : Fin'} (hf : FinOK c f) (h : Heap) (pre body : List W) (hp : pre.length = preSlotCount c)
    (hb : body.length = (f.all.flatMap itemLocs).length) :
    (f.all.flatMap itemLocs).map (scatter h (f.buf c).reply (pre ++ body)).word = body := by
  apply List.ext_getElem (by simp [hb])
  intro i h1 h2
  rw [List.getElem_map]
  have hi : i < (f.all.flatMap itemLocs).length := by simpa using h1
  refine scatter_in (fin_nodup hf) h _ (preSlotCount c + i) _ _ ?_ ?_
  · rw [fin_locs, List.getElem?_append_right (by rw [preLocs_length]; omega), preLocs_length]
    simp [hi]
  · rw [List.getElem?_append_right (by omega), hp]
    simp [h2]

/-- A conforming reply passes validation. -/
theorem conf_verdict {c : Cfg} {f : Fin'} (hf : FinOK c f) (h : Heap) (pre body : List W) (m : σ)
    (hp : ReplyPre c (f.buf c).send pre)
    (hb : ReplyBody c.ver (f.all.map (onWire c.ver)) (execTxns c.ver tg (f.all.map Item.txn) m).1 body) :
    finVerdict c (scatter h (f.buf c).reply (pre ++ body)).word f = none := by
  have hpl := replyPre_length hp
  have hbl := body_length _ _ _ hb
  have hit := (body_items _ _ _ _ hb (scatter_body hf h pre body hpl hbl)).1
  have hsc : ∀ (p : Nat) (l : Loc) (w : W), (preLocs c f.g.k)[p]? = some l → pre[p]? = some w →
      (scatter h (f.buf c).reply (pre ++ body)).word l = w := by
    intro p l w h1 h2
    refine scatter_in (fin_nodup hf) h _ p _ _ ?_ ?_
    · rw [fin_locs]
      obtain ⟨q1, q2⟩ := List.getElem?_eq_some_iff.1 h1
      rw [List.getElem?_append_left q1]; exact h1
    · obtain ⟨q1, q2⟩ := List.getElem?_eq_some_iff.1 h2
      rw [List.getElem?_append_left q1]; exact h2
  generalize (scatter h (f.buf c).reply (pre ++ body)).word = rd at hit hsc ⊢
  obtain ⟨hub, pkt, rfl, h1, h2⟩ := hp
  have hpkt : (match c.ver with | .v1 => pkt = [] | .v2 => pkt = [0x200000F0#32]) := by
    unfold Fin'.buf at h2
    rw [patch_ipbus, mkBuf_ipbus] at h2
    cases hv : c.ver <;> rw [hv] at h2
    · exact h2
    · exact h2
  unfold finVerdict
  rw [Option.or_eq_none_iff, Option.or_eq_none_iff]
  refine ⟨?_, ?_, ?_⟩
  · unfold hubV
    cases hh : c.hub with
    | none => rfl
    | some x =>
      obtain ⟨ip, port⟩ := x
      rw [hh] at h1
      obtain ⟨y, rfl⟩ := h1
      simp only
      rw [hubVerdict_none_iff _ _ _ _ (BitVec.isLt _) (BitVec.isLt _)]
      constructor
      · rw [hsc 1 (.hub f.g.k 1) ip (by simp [preLocs, preSlots, hh, slotLocs, Loc.plus]) (by simp)]
      · rw [hsc 2 (.hub f.g.k 2) (port.setWidth 32) (by simp [preLocs, preSlots, hh, slotLocs, Loc.plus]) (by simp)]
        rw [BitVec.toNat_setWidth]
        have := port.isLt
        omega
  · unfold pktV
    cases hv : c.ver with
    | v1 => rfl
    | v2 =>
      rw [hv] at hpkt
      simp only at hpkt
      subst hpkt
      simp only
      have : rd (.pkt f.g.k) = 0x200000F0#32 := by
        cases hh : c.hub with
        | none =>
          rw [hh] at h1
          simp only at h1
          subst h1
          exact hsc 0 _ _ (by simp [preLocs, preSlots, hh, hv, slotLocs, Loc.plus]) (by simp)
        | some x =>
          rw [hh] at h1
          obtain ⟨y, rfl⟩ := h1
          exact hsc 3 _ _ (by simp [preLocs, preSlots, hh, hv, slotLocs, Loc.plus]) (by simp)
      rw [this]; simp
  · rw [List.findSome?_eq_none_iff]
    intro it hi
    unfold itemVerdict
    rw [verdict_none_iff, ← txTy_eq]
    exact hit it hi

/-- The replies of a log are those of a target. -/
def Chain (c : Cfg) (tg : Target σ) : σ → List Rx → σ → Prop
  | m, [], m' => m' = m
  | m, e :: es, m' => ∃ txns pre body, parsePacket c.ver (ipbusPart c.hub e.buf.send) = some (0, txns) ∧
      e.reply = pre ++ body ∧ ReplyPre c e.buf.send pre ∧
      ReplyBody c.ver txns (execTxns c.ver tg (txns.map Prod.snd) m).1 body ∧
      Chain c tg (execTxns c.ver tg (txns.map Prod.snd) m).2 es m'

theorem Chain.append {c : Cfg} {a b : List Rx} {m m1 m2 : σ} (h : Chain c tg m a m1) (h' : Chain c tg m1 b m2) :
    Chain c tg m (a ++ b) m2 := by
  induction a generalizing m with
  | nil => cases h; exact h'
  | cons e es ih =>
    obtain ⟨txns, pre, body, h1, h2, h3, h4, h5⟩ := h
    exact ⟨txns, pre, body, h1, h2, h3, h4, ih h5⟩

theorem onWire_snd (v : Ver) (its : List Item) : (its.map (onWire v)).map Prod.snd = its.map Item.txn := by
  simp [onWire, Function.comp_def]

variable {ρ : Type} {mem : ρ → σ} {resp : ρ → List W → Option (List W) × ρ} {c : Cfg}

/-- Nothing has failed and the target has executed exactly the packets answered. -/
def CP (c : Cfg) (tg : Target σ) (mem : ρ → σ) (m0 : σ) (h : List Buf) (t : Link ρ) : Prop :=
  LP c ⟨[], [], []⟩ h t ∧ Chain c tg m0 t.log (mem t.env)

theorem process_conf (hw : WF c) (hcap : CapOK c) (hr : c.ver = .v2 → Roomy c) (hc : Conforms c tg mem resp) (m0 : σ) (n : Nat)
    (h : List Buf) (l : Link ρ) (hP : CP c tg mem m0 h l) : ∃ l', process c resp n l = .ok () l' ∧ CP c tg mem m0 h l' ∧
      (l.pending.length ≤ n → l'.pending = []) ∧ l'.sched = l.sched := by
  induction n generalizing l with
  | zero =>
    exact ⟨l, rfl, hP, fun h0 => List.length_eq_zero_iff.1 (Nat.le_zero.1 h0), rfl⟩
  | succ n ih =>
    obtain ⟨⟨⟨hheap, hok, hpre⟩, logE, hlog, hh, hall, hfin⟩, hch⟩ := hP
    rw [process]
    cases hp : l.pending with
    | nil => exact ⟨l, rfl, ⟨⟨⟨hheap, hok, hpre⟩, logE, hlog, hh, hall, hfin⟩, hch⟩, fun _ => hp, rfl⟩
    | cons b bs =>
      simp only
      obtain ⟨f, hf, rfl⟩ := hfin b (by rw [hp]; simp)
      have hne := fin_ne hf hr
      have hparse := parse_fin hf
      obtain ⟨pre, body, e', hre, hpr, hbd, hmem⟩ := hc l.env (f.buf c).send _ hparse (by simp [hne])
      rw [hre]
      simp only
      have hbd0 := hbd
      have hmem0 := hmem
      rw [show (f.all.map fun it => (it.cnt % 2 ^ idBits c.ver, it.txn)) = f.all.map (onWire c.ver) from rfl, onWire_snd] at hbd hmem
      have hv := conf_verdict hf l.heap pre body _ hpr hbd
      have hval := validateBuf_fin hw hf hcap hr (scatter l.heap (f.buf c).reply (pre ++ body)).word
      have hout := receive_out c l.heap (f.buf c) (pre ++ body)
      rw [hval, hv] at hout
      have hre2 : receiveReply c l.heap (f.buf c) (pre ++ body) = (VOut.ok, (receiveReply c l.heap (f.buf c) (pre ++ body)).2) :=
        Prod.ext hout rfl
      rw [hre2]
      simp only
      obtain ⟨l', i1, i2, i3, i4⟩ := ih { l with
          heap := (receiveReply c l.heap (f.buf c) (pre ++ body)).2, pending := bs, env := e',
          log := l.log ++ [⟨f.buf c, pre ++ body, .ok⟩] }
        ⟨⟨⟨by rw [replay_append, ← hheap]; rfl, by
            rw [LogOK.append]
            refine ⟨hok, ?_, trivial⟩
            rw [← hheap]; exact hout, hpre.trans (List.prefix_append _ _)⟩, logE ++ [⟨f.buf c, pre ++ body, .ok⟩],
          by rw [hlog, List.append_assoc], by rw [hh, hp]; simp, by
            intro x hx
            rw [List.mem_append] at hx
            rcases hx with hx | hx
            · exact hall x hx
            · simp at hx; rw [hx], fun x hx => hfin x (by rw [hp]; simp [hx])⟩,
          hch.append ⟨_, pre, body, hparse, rfl, hpr, hbd0, hmem0⟩⟩
      exact ⟨l', i1, i2, fun hl => i3 (by simpa using hl), i4⟩

theorem conf_TOK (hw : WF c) (hcap : CapOK c) (hr : c.ver = .v2 → Roomy c) (hc : Conforms c tg mem resp) (m0 : σ) :
    TOK c (linkT c resp) (CP c tg mem m0) LF (fun _ _ _ => False) := by
  constructor
  · intro h t f hP hf
    unfold linkT
    simp only
    have hP' : CP c tg mem m0 h { t with sched := t.sched.tail } := ⟨⟨⟨hP.1.1.heap, hP.1.1.ok, hP.1.1.pre⟩, hP.1.2⟩, hP.2⟩
    obtain ⟨l1, h1, ⟨⟨⟨a1, a2, a3⟩, logE, a4, a5, a6, a7⟩, a8⟩, _⟩ := process_conf hw hcap hr hc m0 (t.sched.headD (0, 0)).1 h _ hP'
    rw [h1]
    simp only
    obtain ⟨l2, h2, h3, _⟩ := process_conf hw hcap hr hc m0 (t.sched.headD (0, 0)).2 (h ++ [f.buf c])
        { l1 with pending := l1.pending ++ [f.buf c] }
        ⟨⟨⟨a1, a2, a3⟩, logE, a4, by rw [a5]; simp, a6, by
          intro b hb
          simp only [List.mem_append, List.mem_singleton] at hb
          rcases hb with hb | hb
          · exact a7 b hb
          · exact ⟨f, hf, hb⟩⟩, a8⟩
    rw [h2]
    exact h3
  · intro h t hP
    have hfl : (linkT c resp).flush t = process c resp t.pending.length t := rfl
    obtain ⟨l1, h1, h2, h3, _⟩ := process_conf hw hcap hr hc m0 t.pending.length h t hP
    rw [hfl, h1]
    exact ⟨h2, h3 (Nat.le_refl _)⟩

theorem RI.mono {τ : Type} {P P' : List Buf → τ → Prop} {F : τ → Prop} {s : St τ} {fs : List Fin'} {G : Gh} (h : RI c P F s fs G)
    (hP : ∀ h t, P h t → P' h t) : RI c P' F s fs G := by
  obtain ⟨⟨⟨a1, a2, a3, a4, a5, a6, a7, a8, a9, a10⟩, a11, a12⟩, b1, b2, b3, b4, b5, b6⟩ := h
  exact ⟨⟨⟨a1, a2, a3, a4, a5, a6, a7, a8, a9, hP _ _ a10⟩, a11, a12⟩, b1, b2, b3, b4, b5, b6⟩

/-- Calls, their results, and the items of the accepted ones. -/
inductive Rendered (v : Ver) : List Op → List Res → List Item → Prop
  | nil : Rendered v [] [] []
  | ok {r : OpRec} {ops : List Op} {rs : List Res} {its : List Item} : r.OK v → Rendered v ops rs its →
      Rendered v (r.op :: ops) (.ok r.hd :: rs) (r.its ++ its)
  | refused {op : Op} {e : Exc} {ops : List Op} {rs : List Res} {its : List Item} : opAccs v op = none → Rendered v ops rs its →
      Rendered v (op :: ops) (.exc e :: rs) its

theorem lowBit_some {m : W} {k : Nat} (h : LowestSet m k) : lowBit m = some k := by
  unfold lowBit
  rw [List.find?_range_eq_some]
  refine ⟨h.2.1, by simp; exact h.1, ?_⟩
  intro j hj
  simp [h.2.2 j hj]

theorem opAccs_forbidden {v : Ver} {w : Bool} {a d m : W} (hm : MaskOK w m) (h : maskedArg w d m = .forbidden) :
    opAccs v (.writeMasked a d m) = none := by
  obtain ⟨k, hk⟩ := exists_lowest m hm.1
  rw [opAccs, lowBit_some hk]
  simp only
  rw [if_neg]
  rintro ⟨h1, h2⟩
  obtain ⟨x, o, hx⟩ := (C03_accept_iff w d m k hm hk.2.1 hk.2.2).2 ⟨h1, fun i hi => h2 i (BitVec.lt_of_getLsbD hi) hi⟩
  rw [h] at hx; cases hx

theorem crun (hw : WF c) (hcap : CapOK c) (hr : c.ver = .v2 → Roomy c) (hc : Conforms c tg mem resp) (m0 : σ) (ops : List Op)
    (hops : ∀ op ∈ ops, op.ok c) {s : St (Link ρ)} {G : Gh} (h : RI c (CP c tg mem m0) LF s [] G) :
    ∃ rs s' G' its, runOps c (linkT c resp) ops s = some (rs, s') ∧ RI c (CP c tg mem m0) LF s' [] G' ∧
      user G'.items = user G.items ++ its ∧ Rendered c.ver ops rs its ∧ (ops.getLast? = some .dispatch → G'.cur = none) := by
  induction ops generalizing s G with
  | nil => exact ⟨[], s, G, [], rfl, h, by simp, .nil, by simp⟩
  | cons op ops ih =>
    have hs := step hw (conf_TOK hw hcap hr hc m0) h.rep op (hops op (by simp))
    rw [runOps]
    generalize op.run c (linkT c resp) s = r at hs ⊢
    have hnil : ∀ {rs : List Res} {s1 s2 : St (Link ρ)}, ops = [] → runOps c (linkT c resp) ops s1 = some (rs, s2) → s2 = s1 := by
      rintro rs s1 s2 rfl h; rw [runOps] at h; cases h; rfl
    cases hs with
    | ok hh s1 G1 its obj rep ext mono real hok tiles disp =>
      obtain ⟨rs, s', G', its', h1, h2, h3, h4, h5⟩ := ih (fun o ho => hops o (by simp [ho])) (h.extend rep ext.base ext.all mono)
      refine ⟨.ok hh :: rs, s', G', its ++ its', by simp only [h1]; rfl, h2, ?_,
        .ok (r := ⟨op, hh, obj, its⟩) ⟨real, hok, fun h => (tiles h).1, fun h => (disp h).1⟩ h4, ?_⟩
      · rw [h3, ext.user, List.append_assoc]
      · intro hl
        cases hops' : ops with
        | nil =>
          rw [hops', List.getLast?_singleton, Option.some.injEq] at hl
          have := hnil hops' h1
          subst this
          have e1 := rep.cur
          have e2 := h2.rep.cur
          rw [(disp hl).2] at e1
          rw [e1] at e2
          cases hg : G'.cur with
          | none => rfl
          | some g => rw [hg] at e2; cases e2
        | cons o ops' =>
          rw [hops', List.getLast?_cons_cons] at hl
          rw [hops'] at h5
          exact h5 hl
    | forbidden a d m hop hf =>
      subst hop
      obtain ⟨rs, s', G', its', h1, h2, h3, h4, h5⟩ := ih (fun o ho => hops o (by simp [ho])) h
      refine ⟨.exc _ :: rs, s', G', its', by simp only [h1]; rfl, h2, h3,
        .refused (opAccs_forbidden (hops (.writeMasked a d m) (by simp)) hf) h4, ?_⟩
      intro hl
      cases hops' : ops with
      | nil => rw [hops'] at hl; simp at hl
      | cons o ops' => rw [hops', List.getLast?_cons_cons] at hl; rw [hops'] at h5; exact h5 hl
    | refused a m s1 G1 hop hv rep ext mono =>
      subst hop
      obtain ⟨rs, s', G', its', h1, h2, h3, h4, h5⟩ := ih (fun o ho => hops o (by simp [ho])) (h.extend rep ext.base ext.all mono)
      refine ⟨.exc _ :: rs, s', G', its', by simp only [h1]; rfl, h2, ?_, .refused (by simp [opAccs, hv]) h4, ?_⟩
      · rw [h3]
        have := ext.user
        rw [List.append_nil] at this
        exact congrArg (· ++ its') this
      · intro hl
        cases hops' : ops with
        | nil => rw [hops'] at hl; simp at hl
        | cons o ops' => rw [hops', List.getLast?_cons_cons] at hl; rw [hops'] at h5; exact h5 hl
    | failed e s1 us fail real =>
      obtain ⟨t, _, ht⟩ := fail.tr
      exact ht.elim


/-! ### From the log to the calls -/

theorem chain_vals {rd : Loc → W} {log : List Rx} {ls : List Fin'} {m m' : σ} (hb : log.map Rx.buf = ls.map (Fin'.buf c))
    (hf : ∀ f ∈ ls, FinOK c f) (h : Chain c tg m log m')
    (hrd : ∀ p ∈ log.zip ls, ∀ pre body, p.1.reply = pre ++ body → pre.length = preSlotCount c →
      body.length = (p.2.all.flatMap itemLocs).length → (p.2.all.flatMap itemLocs).map rd = body) :
    (execTxns c.ver tg ((ls.flatMap Fin'.all).map Item.txn) m).2 = m' ∧
      ∀ p ∈ (ls.flatMap Fin'.all).zip (execTxns c.ver tg ((ls.flatMap Fin'.all).map Item.txn) m).1, Holds rd p.1 p.2 := by
  induction log generalizing ls m with
  | nil =>
    cases ls with
    | cons _ _ => simp at hb
    | nil => cases h; simp [execTxns]
  | cons e log ih =>
    cases ls with
    | nil => simp at hb
    | cons f ls =>
      simp only [List.map_cons, List.cons.injEq] at hb
      obtain ⟨txns, pre, body, h1, h2, h3, h4, h5⟩ := h
      have hff := hf f (by simp)
      rw [hb.1, parse_fin hff] at h1
      simp only [Option.some.injEq, Prod.mk.injEq, true_and] at h1
      rw [hb.1] at h3
      have h1' : txns = f.all.map (onWire c.ver) := h1.symm
      subst h1'
      rw [onWire_snd] at h4 h5
      have hbd := hrd (e, f) (by simp) pre body h2 (replyPre_length h3) (body_length _ _ _ h4)
      have hit := (body_items rd _ _ _ h4 hbd).2
      obtain ⟨i1, i2⟩ := ih hb.2 (fun g hg => hf g (by simp [hg])) h5
        (fun p hp => hrd p (by simp [hp]))
      rw [List.flatMap_cons, List.map_append, execTxns_append]
      refine ⟨i1, ?_⟩
      intro p hp
      rw [zip_append_eq (by rw [execTxns_length]; simp), List.mem_append] at hp
      rcases hp with hp | hp
      · exact hit p hp
      · exact i2 p hp

theorem exec_user {v : Ver} {its : List Item} {m : σ} :
    (execTxns v tg ((user its).map Item.txn) m).2 = (execTxns v tg (its.map Item.txn) m).2 ∧
    ∀ p ∈ (user its).zip (execTxns v tg ((user its).map Item.txn) m).1, p ∈ its.zip (execTxns v tg (its.map Item.txn) m).1 := by
  induction its generalizing m with
  | nil => simp [user, execTxns]
  | cons it its ih =>
    by_cases hb : it.txn = .bot
    · have hu : user (it :: its) = user its := by simp [user, hb]
      rw [hu]
      simp only [List.map_cons, execTxns, hb, Txn.accs, execAccs]
      refine ⟨ih.1, ?_⟩
      intro p hp
      rw [List.zip_cons_cons, List.mem_cons]
      exact .inr (ih.2 p hp)
    · have hu : user (it :: its) = it :: user its := by simp [user, hb]
      rw [hu]
      simp only [List.map_cons, execTxns]
      refine ⟨ih.1, ?_⟩
      intro p hp
      rw [List.zip_cons_cons, List.mem_cons] at hp ⊢
      exact hp.imp id (ih.2 p)

/-- The words of the pieces of one object, together. -/
theorem tiles_vals {rd : Loc → W} {obj : Nat} (its : List Item) (k off : Nat) (vs : List (List W)) (ht : Tiles obj k off its)
    (hl : vs.length = its.length) (h : ∀ p ∈ its.zip vs, Holds rd p.1 p.2) :
    vs.flatten = (List.range vs.flatten.length).map fun i => rd (.data obj (off + i)) := by
  induction its generalizing k off vs with
  | nil => exact ht.elim
  | cons it its ih =>
    cases vs with
    | nil => simp at hl
    | cons w vs =>
      have hw : Holds rd it w := h (it, w) (by simp)
      have hwl : w.length = (txData it.txn).getD 0 := by rw [hw]; simp
      have hobj : it.obj = obj ∧ it.off = off := by
        cases its with
        | nil => exact ⟨ht.1, ht.2.2.1⟩
        | cons _ _ => exact ⟨ht.1, ht.2.2.1⟩
      unfold Holds at hw
      rw [hobj.1, hobj.2, ← hwl] at hw
      cases its with
      | nil =>
        cases vs with
        | cons _ _ => simp at hl
        | nil => simpa using hw
      | cons it2 its =>
        have htl : Tiles obj (k + 1) (off + (txData it.txn).getD 0) (it2 :: its) := ht.2.2.2.2
        have := ih (k + 1) (off + (txData it.txn).getD 0) vs htl (by simpa using hl)
          (fun p hp => h p (by rw [List.zip_cons_cons, List.mem_cons]; exact .inr hp))
        rw [List.flatten_cons, List.length_append, List.range_add, List.map_append, ← hw, List.map_map]
        congr 1
        rw [this, ← hwl]
        simp only [List.length_map, List.length_range]
        apply List.map_congr_left
        intro i _
        simp [Nat.add_assoc]

/-- Masks for which reading the value is defined. -/
def Op.maskOK (w : Bool) : Op → Prop
  | .readMasked _ m => MaskOK w m
  | .readConfig _ m => MaskOK w m
  | _ => True

theorem realises_accs {v : Ver} {op : Op} {txns : List Txn} (h : Realises v op txns) :
    opAccs v op = some (txns.flatMap Txn.accs) := by
  cases op with
  | write a d => simp only [Realises] at h; subst h; simp [opAccs, Txn.accs, addrs, List.range_succ]
  | writeMasked a d m =>
    obtain ⟨k, h1, h2, h3, h4, rfl⟩ := h
    rw [opAccs, lowBit_some ⟨BitVec.lt_of_getLsbD h1, h1, h2⟩]
    simp only
    rw [if_pos ⟨h3, fun i _ hi => h4 i hi⟩]
    simp [Txn.accs]
  | writeBlock a src inc => rw [opAccs, h.1]
  | read a => simp only [Realises] at h; subst h; simp [opAccs, Txn.accs, addrs, List.range_succ]
  | readMasked a m => simp only [Realises] at h; subst h; simp [opAccs, Txn.accs, addrs, List.range_succ]
  | readBlock a n inc => rw [opAccs, h.1]
  | readConfig a m =>
    obtain ⟨rfl, rfl⟩ := h
    simp [opAccs, Txn.accs, addrs, List.range_succ]
  | rmwBits a x o => simp only [Realises] at h; subst h; simp [opAccs, Txn.accs]
  | rmwSum a x => simp only [Realises] at h; subst h; simp [opAccs, Txn.accs]
  | dispatch => simp only [Realises] at h; subst h; simp [opAccs]

theorem maskedValue_noMask (w : Bool) (x : W) : maskedValue w x noMask = some x := by
  have h0 : LowestSet noMask 0 := ⟨by decide, by decide, by omega⟩
  have := C02_unique w noMask 0 ⟨by decide, .inr (by decide)⟩ h0.2.1 h0.2.2
  unfold maskedValue
  rw [this]
  simp [shr, noMask]
  have : (4294967295#32) = BitVec.allOnes 32 := by decide
  rw [this, BitVec.and_allOnes]

theorem maskedValue_low {w : Bool} {m : W} (hm : MaskOK w m) (x : W) :
    maskedValue w x m = some ((x &&& m) >>> (lowBit m).getD 0) := by
  obtain ⟨k, hk⟩ := exists_lowest m hm.1
  have := C02_unique w m k hm hk.2.1 hk.2.2
  unfold maskedValue
  rw [this, lowBit_some hk]
  simp [shr, hk.1]

/-- What the user sees of the result of a call: `none` if it threw. -/
def resShow (w : Bool) (h : Heap) : Res → Option ValOut
  | .ok none => some (.data [])
  | .ok (some hd) => some (hd.read w h)
  | .exc _ => none

/-- One accepted call. -/
theorem rec_show {v : Ver} {r : OpRec} (hr : r.OK v) {h : Heap} {w : Bool} (m : σ)
    (hv : ∀ hd, r.hd = some hd → h.valid hd.obj = true) (hm : r.op.maskOK w)
    (hh : ∀ p ∈ r.its.zip (execTxns v tg (r.its.map Item.txn) m).1, Holds h.word p.1 p.2) :
    resShow w h (.ok r.hd) = some (.data (opShow r.op (execTxns v tg (r.its.map Item.txn) m).1.flatten)) := by
  have hreal := hr.real
  have hok := hr.hok
  have ht := hr.tiles
  have hlen := execTxns_length v tg (r.its.map Item.txn) m
  have hacc := execTxns_flatten v tg (r.its.map Item.txn) m
  generalize hE : (execTxns v tg (r.its.map Item.txn) m).1 = vs at hh hlen hacc ⊢
  rw [List.length_map] at hlen
  obtain ⟨op, hd, obj, its⟩ := r
  simp only at hreal hok ht hlen hacc hh hv hm ⊢
  have key : op ≠ .dispatch → vs.flatten = (List.range vs.flatten.length).map fun i => h.word (.data obj i) := by
    intro hd
    have := tiles_vals _ _ _ vs (ht hd) hlen hh
    simpa using this
  have one : ∀ t, its.map Item.txn = [t] → op ≠ .dispatch → (txData t).getD 0 = 1 → vs.flatten = [h.word (.data obj 0)] := by
    intro t h1 h2 h3
    have hl1 : vs.flatten.length = 1 := by
      have := congrArg (fun p : List W × σ => p.1.length) hacc
      simp only at this
      rw [← this, h1, List.flatMap_singleton, execAccs_txn_length, h3]
    rw [key h2, hl1]; simp
  cases op <;> simp only [HandleOK] at hok <;> subst hok <;> simp only [resShow, Handle.read, opShow]
  case dispatch =>
    simp only [Realises] at hreal
    have : its = [] := List.map_eq_nil_iff.1 hreal
    subst this
    simp at hlen
    subst hlen
    rfl
  all_goals
    have hvo : h.valid obj = true := hv _ rfl
    rw [if_pos hvo]
  all_goals try rfl
  case read a =>
    simp only [Realises] at hreal
    rw [maskedValue_noMask, one _ hreal (by simp) rfl]
  case rmwBits a x o =>
    simp only [Realises] at hreal
    rw [maskedValue_noMask, one _ hreal (by simp) rfl]
  case rmwSum a x =>
    simp only [Realises] at hreal
    rw [maskedValue_noMask, one _ hreal (by simp) rfl]
  case readMasked a mk =>
    simp only [Realises] at hreal
    rw [maskedValue_low hm, one _ hreal (by simp) rfl]; rfl
  case readConfig a mk =>
    rw [maskedValue_low hm, one _ hreal.2 (by simp) rfl]; rfl
  case readBlock a n inc =>
    have hl : vs.flatten.length = n.toNat := by
      have := congrArg (fun p : List W × σ => p.1.length) hacc
      simp only at this
      rw [← this, hreal.1, execAccs_rd_length, addrs_length]
    rw [← hl]
    exact congrArg (fun x => some (ValOut.data x)) (key (by simp)).symm

theorem rendered_show {v : Ver} {ops : List Op} {rs : List Res} {its : List Item} (hR : Rendered v ops rs its) {h : Heap} {w : Bool}
    (m : σ) (hv : ∀ hd, .ok (some hd) ∈ rs → h.valid hd.obj = true) (hm : ∀ op ∈ ops, op.maskOK w)
    (hh : ∀ p ∈ its.zip (execTxns v tg (its.map Item.txn) m).1, Holds h.word p.1 p.2) :
    rs.map (resShow w h) = (seqRun v tg ops m).1.map (Option.map ValOut.data) ∧
      (execTxns v tg (its.map Item.txn) m).2 = (seqRun v tg ops m).2 := by
  induction hR generalizing m with
  | nil => exact ⟨rfl, rfl⟩
  | @ok r ops rs its hr hR ih =>
    have hacc := realises_accs hr.real
    rw [List.map_append, execTxns_append] at hh ⊢
    rw [zip_append_eq (by rw [execTxns_length]; simp)] at hh
    rw [seqRun, hacc]
    simp only [execTxns_flatten]
    obtain ⟨i1, i2⟩ := ih (execTxns v tg (r.its.map Item.txn) m).2 (fun hd hmem => hv hd (by simp [hmem]))
      (fun op hop => hm op (by simp [hop]))
      (fun p hp => hh p (by rw [List.mem_append]; exact .inr hp))
    refine ⟨?_, i2⟩
    rw [List.map_cons, List.map_cons, i1]
    congr 1
    exact rec_show hr m (fun hd hhd => hv hd (by simp [hhd])) (hm _ (by simp)) (fun p hp => hh p (by rw [List.mem_append]; exact .inl hp))
  | @refused op e ops rs its hop hR ih =>
    obtain ⟨i1, i2⟩ := ih m (fun hd hmem => hv hd (by simp [hmem]))
      (fun op hop => hm op (by simp [hop])) hh
    rw [seqRun, hop]
    exact ⟨by rw [List.map_cons, List.map_cons, i1]; rfl, i2⟩

end
end Verif
