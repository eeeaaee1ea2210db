import Verif.Model.Hub13
import Verif.Props.C56Order
import Verif.Lemmas.SharedWorld
/-!
# Packets of an IPbus 1.3 client at the ControlHub
-/

set_option autoImplicit false
set_option linter.unusedSimpArgs false

namespace Verif.Hub13
open Verif Verif.Spec
open Verif.Hub (Bytes is13 Tgt13)

section
variable {c : Cfg} {ip : W} {port : BitVec 16} {σ : Type}

/-- The first word of a packet is the header of a byte-order transaction. -/
theorem fin_is13 (hh : c.hub = some (ip, port)) (hv : c.ver = .v1) {f : Fin'} (hf : FinOK c f) : is13 (pktBytes (f.buf c)) = true := by
  have h1 : (f.buf c).send.drop 2 = f.all.flatMap (enc .v1) := by
    have h2 := mkBuf_ipbus c f.g.k f.all
    have h3 := patch_ipbus c (mkBuf c ⟨f.g.k, f.all⟩)
    rw [h2, hv] at h3
    unfold ipbusPart at h3
    rw [hh] at h3
    exact h3
  have hs := hf.grp.shape
  rw [hv] at hs
  obtain ⟨n, o, us, hi, -⟩ := hs
  have hl : txLegal .v1 (.bot : Txn) := ⟨by simp [supported, txTy], by decide⟩
  obtain ⟨f1, f2, f3, f4, f5⟩ := hdrWord_fields (v := .v1) (it := ⟨n, .bot, o, 0, 0, true⟩) hl
  have hall : ∃ r, f.all.flatMap (enc .v1) = hdrWord .v1 ⟨n, .bot, o, 0, 0, true⟩ :: r := by
    rw [Fin'.all, hi, List.cons_append, List.flatMap_cons]
    exact ⟨_, rfl⟩
  obtain ⟨r, hall⟩ := hall
  rw [pktBytes, h1, hall, wordBytes_cons]
  generalize hdrWord .v1 ⟨n, .bot, o, 0, 0, true⟩ = w at *
  have f3' := (tyOf_iff _ _ _).1 f3
  simp only [field, tyLow, wcBits, idBits, txTy, txWC, reqCode, verNibble] at f1 f2 f3' f4 f5
  have hw := w.isLt
  simp only [wireCode, Option.some.injEq] at f3'
  simp only [leBytes, List.cons_append, List.nil_append, is13, Bool.or_eq_true, Bool.and_eq_true, beq_iff_eq]
  right
  omega

theorem execBytes13_status (tg : Target σ) (m : σ) :
    execBytes13 tg m Hub.statusReq13 = (m, (List.replicate 10 [0xfc, 0, 0, 0x10]).flatten) := by
  rfl

/-- The answer to a packet as words and as bytes. -/
theorem viaHub_bytes (hh : c.hub = some (ip, port)) (hv : c.ver = .v1) (tg : Target σ) (d : Dev σ) {b : Buf} {txns : List (Nat × Txn)}
    (hp : parsePacket .v1 (b.send.drop 2) = some (0, txns)) (hne : txns ≠ []) :
    ∃ it, viaHub c tg d b.send = (some it, { d with mem := (execBytes13 tg d.mem (pktBytes b)).1 }) ∧
      wordBytes it = Spec.Hub.reply (hubAddr ip port).ip (hubAddr ip port).port [⟨0, (execBytes13 tg d.mem (pktBytes b)).2⟩] ∧
      (execBytes13 tg d.mem (pktBytes b)).1 = (execTxns c.ver tg (txns.map Prod.snd) d.mem).2 ∧
      Says c b (txns.map Prod.snd) it (execTxns c.ver tg (txns.map Prod.snd) d.mem).1 := by
  simp only [parsePacket, Option.map_eq_some_iff, Prod.mk.injEq, true_and] at hp
  obtain ⟨l, hl, rfl⟩ := hp
  have hws : b.send.drop 2 ≠ [] := by
    intro hx
    rw [hx] at hl
    exact hne (parseTxns_nil hl)
  obtain ⟨hds, hb⟩ := analyzeLoop_words .v1 _ (b.send.drop 2).length _ l hl hws (Nat.le_refl _)
  have key : ∀ {σ : Type} (tg : Target σ) (d : Dev σ), viaHub c tg d b.send =
      (some (htonl (BitVec.ofNat 32 (4 * (bodyWords hds (execTxns c.ver tg (l.map Prod.snd) d.mem).1).length + 8)) :: ip ::
        port.setWidth 32 :: bodyWords hds (execTxns c.ver tg (l.map Prod.snd) d.mem).1),
        { d with mem := (execTxns c.ver tg (l.map Prod.snd) d.mem).2 }) := by
    intro σ tg d
    simp only [viaHub, hh, hv, dummyReply, hb, List.nil_append]
    rfl
  have hex : execBytes13 tg d.mem (pktBytes b) =
      ((execTxns c.ver tg (l.map Prod.snd) d.mem).2, wordBytes (bodyWords hds (execTxns c.ver tg (l.map Prod.snd) d.mem).1)) := by
    simp only [execBytes13, pktBytes, ofLE_wordBytes, hb, hv, List.nil_append]
  refine ⟨_, by rw [key, hex], ?_, by rw [hex], ?_⟩
  · rw [hex]
    have h3 := C51_reply ip port [(0#16, bodyWords hds (execTxns c.ver tg (l.map Prod.snd) d.mem).1)]
    simp only [List.map_cons, List.map_nil, List.flatMap_cons, List.flatMap_nil, List.append_nil, portCode_zero] at h3
    exact h3.symm
  · intro σ' tg' d' he
    rw [key, he]

theorem fin_parse (hh : c.hub = some (ip, port)) (hv : c.ver = .v1) {f : Fin'} (hf : FinOK c f) :
    ∃ txns, parsePacket .v1 ((f.buf c).send.drop 2) = some (0, txns) ∧ txns ≠ [] ∧ txns.map Prod.snd = f.txns := by
  have hparse := parse_fin hf
  rw [hv] at hparse
  unfold ipbusPart at hparse
  rw [hh] at hparse
  refine ⟨_, hparse, ?_, ?_⟩
  · simpa using fin_ne hf fun h => by rw [hv] at h; cases h
  · simp [Fin'.txns]

/-- The packets that the target executed, from the side of one of the connections. -/
theorem pks13 (hh : c.hub = some (ip, port)) (hv : c.ver = .v1) (tg : Target σ) (me : Nat) :
    ∀ (cr : List (Bytes × Nat)) (fs : List Fin') (its : List (List W)) (m : σ), (∀ f ∈ fs, FinOK c f) →
    (cr.filter fun q => decide (q.2 = me)).map (·.1) = fs.map (fun f => pktBytes (f.buf c)) → its.length = fs.length →
    (∀ (k : Nat) (f : Fin') (it : List W), cr[k]? = some (pktBytes (f.buf c), me) →
      fs[((cr.take k).filter fun q => decide (q.2 = me)).length]? = some f →
      its[((cr.take k).filter fun q => decide (q.2 = me)).length]? = some it →
      ∃ last, (viaHub c tg ⟨Hub.final (execBytes13 tg) m ((cr.take k).map (·.1)), last⟩ (f.buf c).send).1 = some it) →
    ∃ vs, SharedPks c.ver tg (fun m b => (execBytes13 tg m b).1) m (fs.map Fin'.txns) ((cr.filter fun q => !decide (q.2 = me)).map (·.1)) vs
        (Hub.final (execBytes13 tg) m (cr.map (·.1))) ∧ AllSay c fs its vs := by
  intro cr
  induction cr with
  | nil =>
    intro fs its m _ hown hlen _
    have : fs = [] := by simpa using hown.symm
    subst this
    have : its = [] := by simpa using hlen
    subst this
    exact ⟨[], .done m, trivial⟩
  | cons x cr ih =>
    intro fs its m hfin hown hlen hk
    obtain ⟨body, who⟩ := x
    by_cases hx : who = me
    · subst hx
      rw [List.filter_cons_of_pos (by simp), List.map_cons] at hown
      cases fs with
      | nil => simp at hown
      | cons f fs =>
        cases its with
        | nil => simp at hlen
        | cons it its =>
          rw [List.map_cons] at hown
          injection hown with h1 h2
          simp only at h1
          subst h1
          obtain ⟨last, h3⟩ := hk 0 f it rfl rfl rfl
          obtain ⟨txns, p1, p2, p3⟩ := fin_parse hh hv (hfin f (by simp))
          obtain ⟨it', q1, -, b1, b2⟩ := viaHub_bytes hh hv tg ⟨m, last⟩ p1 p2
          rw [show Hub.final (execBytes13 tg) m (List.map (·.1) (List.take 0 ((pktBytes (f.buf c), who) :: cr))) = m from rfl, q1] at h3
          cases h3
          rw [p3] at b1 b2
          simp only at b1 b2
          obtain ⟨vs, g1, g2⟩ := ih fs its (execTxns c.ver tg f.txns m).2 (fun f hf => hfin f (by simp [hf])) h2 (by simpa using hlen) (by
            intro k f' it' hk1 hk2 hk3
            obtain ⟨last, h⟩ := hk (k + 1) f' it' hk1
              (by rw [List.take_succ_cons, List.filter_cons_of_pos (by simp), List.length_cons]; exact hk2)
              (by rw [List.take_succ_cons, List.filter_cons_of_pos (by simp), List.length_cons]; exact hk3)
            refine ⟨last, ?_⟩
            rw [List.take_succ_cons, List.map_cons, Hub.final] at h
            rw [← b1]
            exact h)
          refine ⟨_ :: vs, ?_, b2, g2⟩
          rw [List.filter_cons_of_neg (by simp), List.map_cons, List.map_cons, Hub.final]
          rw [← b1] at g1
          apply SharedPks.mine
          rw [← b1]
          exact g1
    · rw [List.filter_cons_of_neg (by simpa using hx)] at hown
      obtain ⟨vs, g1, g2⟩ := ih fs its (execBytes13 tg m body).1 hfin hown hlen (by
        intro k f' it' hk1 hk2 hk3
        obtain ⟨last, h⟩ := hk (k + 1) f' it' hk1
          (by rw [List.take_succ_cons, List.filter_cons_of_neg (by simpa using hx)]; exact hk2)
          (by rw [List.take_succ_cons, List.filter_cons_of_neg (by simpa using hx)]; exact hk3)
        refine ⟨last, ?_⟩
        rw [List.take_succ_cons, List.map_cons, Hub.final] at h
        exact h)
      refine ⟨vs, ?_, g2⟩
      rw [List.filter_cons_of_pos (by simpa using hx), List.map_cons, List.map_cons, Hub.final]
      exact .other g1

end

/-! ## The connection -/

section
variable {σ : Type} {exec : σ → Bytes → σ × Bytes} {absMax me p : Nat} {a : TraMgr.Addr}
open Verif.Hub (Timely casts DC Msg)
open Verif.TraMgr (TM Talk asked answers)

theorem timely_prefix {τ : Type} {recv : τ → Bytes → Bytes → τ × List Bytes} (es es' : List Hub.WEv) : ∀ (s : Hub.World τ) (used : List Nat),
    Timely recv absMax s used (es ++ es') = true → Timely recv absMax s used es = true := by
  induction es with
  | nil => intro s used _; rfl
  | cons e es ih =>
    intro s used h
    rw [List.cons_append] at h
    simp only [Timely, Bool.and_eq_true] at h ⊢
    refine ⟨h.1, ?_⟩
    cases hs : s.step recv absMax e with
    | none => rfl
    | some s' =>
      have h2 := h.2
      rw [hs] at h2
      exact ih _ _ h2

theorem run_append {τ : Type} {recv : τ → Bytes → Bytes → τ × List Bytes} (es es' : List Hub.WEv) : ∀ (s : Hub.World τ),
    s.run recv absMax (es ++ es') = (s.run recv absMax es).bind fun s => s.run recv absMax es' := by
  induction es with
  | nil => intro s; rfl
  | cons e es ih =>
    intro s
    rw [List.cons_append]
    simp only [Hub.World.run]
    cases hs : s.step recv absMax e with
    | none => rfl
    | some s' => exact ih s'

theorem casts_append (es es' : List Hub.WEv) : casts (es ++ es') = casts es ++ casts es' := by
  induction es with
  | nil => rfl
  | cons e es ih => cases e <;> simp [casts, ih]

theorem drain_rest_prefix {r : List Msg} {d : DC} (h : r <+: d.rest) (code : Nat) : r <+: (d.drain code).rest := h.trans (List.prefix_append _ _)

theorem after_rest_prefix {r : List Msg} {d : DC} (h : r = d.rest) (old : Hub.Hub) (code : Nat) : r <+: (d.after old code).rest := by
  subst h
  unfold DC.after
  split
  · exact drain_rest_prefix (List.prefix_refl _) _
  · exact List.prefix_refl _

theorem send13_rest_prefix {r : List Msg} {d : DC} (h : r = d.rest) (pkt : Bytes) (pid : Nat) : r <+: (d.send13 pkt pid).1.rest := by
  subst h
  unfold DC.send13
  split
  · exact List.prefix_refl _
  · exact List.prefix_append _ _

/-- Messages are not taken back. -/
theorem step_rest {d d' : DC} {e : Hub.DEv} {out : List Bytes} (h : d.step absMax e = some (d', out)) : d.rest <+: d'.rest := by
  cases e with
  | cast pkt pid =>
    simp only [DC.step] at h
    split at h <;> (cases h; exact List.prefix_refl _)
  | take =>
    simp only [DC.step] at h
    split at h
    · cases h
    · unfold DC.take at h
      split at h
      · cases h
      · split at h
        · split at h <;> (cases h; exact List.prefix_refl _)
        · split at h
          · cases h; exact List.prefix_refl _
          · cases h
        · split at h
          · simp only [Option.some.injEq] at h
            have := congrArg Prod.fst h
            simp only at this
            rw [← this]
            exact send13_rest_prefix (by rfl) _ _
          · cases h
        · cases h
  | udp p =>
    simp only [DC.step] at h
    split at h
    · cases h
    · unfold DC.udp at h
      split at h
      · split at h
        · split at h
          · simp only [Option.some.injEq] at h
            have := congrArg Prod.fst h
            simp only at this
            rw [← this]
            exact send13_rest_prefix (by rfl) _ _
          · split at h
            · cases h; exact List.prefix_refl _
            · cases h
              exact drain_rest_prefix (List.prefix_append _ _) _
            · cases h; exact List.prefix_refl _
        · cases h
      · split at h
        · cases h
          exact after_rest_prefix (by rfl) _ _
        · cases h
      · cases h
        unfold DC.forward13
        split
        · exact List.prefix_append _ _
        · exact List.prefix_refl _
      · cases h
  | timeout =>
    simp only [DC.step] at h
    split at h
    · cases h
    · unfold DC.timeout at h
      split at h
      · split at h
        · cases h
          exact drain_rest_prefix (List.prefix_append _ _) _
        · cases h; exact List.prefix_refl _
      · split at h
        · cases h
        · split at h
          · cases h
          · cases h
            exact after_rest_prefix (by rfl) _ _
      · split at h
        · split at h
          · cases h; exact List.prefix_refl _
          · cases h
        · split at h
          · cases h; exact List.prefix_refl _
          · split at h
            · cases h
              exact drain_rest_prefix (List.prefix_append _ _) _
            · cases h; exact List.prefix_refl _
      · cases h

theorem world_rest {τ : Type} {recv : τ → Bytes → Bytes → τ × List Bytes} {s s' : Hub.World τ} {e : Hub.WEv}
    (h : s.step recv absMax e = some s') : s.dc.rest <+: s'.dc.rest := by
  have proc : ∀ (x : Hub.DEv), s.proc absMax x = some s' → s.dc.rest <+: s'.dc.rest := by
    intro x hx
    unfold Hub.World.proc at hx
    split at hx
    · rename_i r hr
      cases hx
      exact step_rest (out := r.2) hr
    · cases hx
  cases e with
  | cast pkt pid => exact proc _ h
  | take => exact proc _ h
  | toTarget i junk =>
    simp only [Hub.World.step] at h
    split at h
    · cases h
    · split at h
      · cases h; exact List.prefix_refl _
      · cases h
  | toHub i =>
    simp only [Hub.World.step] at h
    split at h
    · cases h
    · exact proc _ h
  | timeout => exact proc _ h

/-- The messages are those outside the loop for IPbus 2.0. -/
theorem msgs_rest {t0 : Tgt13 σ} (hst : ∀ st, (exec st Hub.statusReq13).2.take 4 = [0xfc, 0, 0, 0x10]) {es : List Hub.WEv} {s : Hub.World (Tgt13 σ)}
    (ht : Timely (Tgt13.recv exec) absMax (Hub.World.init t0) [] es = true)
    (hr : (Hub.World.init t0).run (Tgt13.recv exec) absMax es = some s) : s.dc.msgs = s.dc.rest := by
  obtain ⟨used, ⟨taken, hc, _, _⟩, _⟩ := Hub.I13.run hst es [] [] _ s (Hub.I13.init t0) ht hr
  simp [DC.msgs, hc.h]

theorem TM.run_append (es es' : List TraMgr.Ev) : ∀ (s : TM), s.run (es ++ es') = (s.run es).run es' := by
  induction es with
  | nil => intro s; rfl
  | cons e es ih => intro s; exact ih _

theorem asked_append (l l' : List Talk) : asked (l ++ l') = asked l ++ asked l' := by
  induction l with
  | nil => rfl
  | cons t l ih => cases t <;> simp [asked, ih]

theorem answers_append (l l' : List Talk) : answers (l ++ l') = answers l ++ answers l' := by
  induction l with
  | nil => rfl
  | cons t l ih => cases t <;> simp [answers, ih]

/-- Messages and requests, one by one. -/
theorem filter_pids (ms : List Msg) : ∀ (dn : List (Bytes × Nat)), ms.length = dn.length →
    (∀ (i : Nat) (m : Msg) (r : Bytes × Nat), ms[i]? = some m → dn[i]? = some r → m.pid = r.2) →
    (ms.filter fun m => decide (m.pid = me)).length = (dn.filter fun r => decide (r.2 = me)).length := by
  induction ms with
  | nil => intro dn h _; cases dn <;> simp at h ⊢
  | cons m ms ih =>
    intro dn h hall
    cases dn with
    | nil => simp at h
    | cons r dn =>
      have h1 := hall 0 m r rfl rfl
      have h2 := ih dn (by simpa using h) (fun i m r hm hr => hall (i + 1) m r hm hr)
      simp only [List.filter_cons, h1]
      split <;> simp [h2]

/-- The invariant of a connection. -/
structure WI (exec : σ → Bytes → σ × Bytes) (absMax me p : Nat) (a : TraMgr.Addr) (t0 : Tgt13 σ) (w : World (Tgt13 σ)) (l : List Talk) : Prop where
  tm : w.tm = TM.init.run (l.map (Talk.ev a))
  whole : ∀ x ∈ asked l, x.2 = p ∧ x.1 ≠ [] ∧ ∀ q ∈ x.1, Spec.Hub.Whole q
  bal : ∀ n, (answers (l.take n)).length ≤ ((asked (l.take n)).map (·.1.length)).sum
  ans : answers l = ((mine me w.net.dc).take w.got).map fun m => ⟨m.code, m.pkt⟩
  got : w.got ≤ (mine me w.net.dc).length
  own : ((casts w.evs).filter fun r => decide (r.2 = me)).map (·.1) = (w.tm.casts.take w.given).map (·.2)
  giv : w.given ≤ w.tm.casts.length
  net : (Hub.World.init t0).run (Tgt13.recv exec) absMax w.evs = some w.net

theorem WI.init (t0 : Tgt13 σ) : WI exec absMax me p a t0 (World.init t0) [] where
  tm := rfl
  whole := by intro x hx; simp [asked] at hx
  bal := by intro n; simp [answers, asked]
  ans := rfl
  got := Nat.zero_le _
  own := rfl
  giv := Nat.zero_le _
  net := rfl

/-- What is cast. -/
theorem WI.casts {t0 : Tgt13 σ} {w : World (Tgt13 σ)} {l : List Talk} (ha : a.ip < 2 ^ 32 ∧ a.port < 2 ^ 16) (h : WI exec absMax me p a t0 w l) :
    w.tm.casts = (asked l).flatMap (fun x => x.1.map fun q => (x.2, q)) ∧ w.tm.crashed = false := by
  have := TraMgr.C50_grouping ha l (fun x hx => (h.whole x hx).2) h.bal
  rw [← h.tm] at this
  exact ⟨this.2.1, this.1⟩

theorem WI.dev {t0 : Tgt13 σ} {w w' : World (Tgt13 σ)} {l : List Talk} {e : Hub.WEv} (hst : ∀ st, (exec st Hub.statusReq13).2.take 4 = [0xfc, 0, 0, 0x10])
    (h : WI exec absMax me p a t0 w l) (hd : w.dev (Tgt13.recv exec) absMax e = some w')
    (ht : Timely (Tgt13.recv exec) absMax (Hub.World.init t0) [] w'.evs = true) (n : Nat) (hn : n ≤ w.tm.casts.length)
    (hown : ((Hub.casts (w.evs ++ [e])).filter fun r => decide (r.2 = me)).map (·.1) = (w.tm.casts.take n).map (·.2)) :
    WI exec absMax me p a t0 { w' with given := n } l := by
  unfold World.dev at hd
  cases hs : w.net.step (Tgt13.recv exec) absMax e with
  | none => rw [hs] at hd; cases hd
  | some net =>
    rw [hs] at hd
    cases hd
    simp only at ht
    have hrun : (Hub.World.init t0).run (Tgt13.recv exec) absMax (w.evs ++ [e]) = some net := by
      rw [run_append, h.net]
      simp only [Option.bind_some, Hub.World.run, hs]
    have hpre : mine me w.net.dc <+: mine me net.dc := by
      unfold mine
      rw [msgs_rest hst (timely_prefix _ _ _ _ ht) h.net, msgs_rest hst ht hrun]
      exact (world_rest hs).filter _
    obtain ⟨t, hpre⟩ := hpre
    refine ⟨h.tm, h.whole, h.bal, ?_, ?_, hown, hn, hrun⟩
    · simp only
      rw [← hpre, List.take_append_of_le_length h.got]
      exact h.ans
    · have := h.got
      simp only
      rw [← hpre, List.length_append]
      omega

theorem dev_given {w w' : World (Tgt13 σ)} {e : Hub.WEv} (hd : w.dev (Tgt13.recv exec) absMax e = some w') : { w' with given := w.given } = w' := by
  unfold World.dev at hd
  split at hd
  · cases hd; rfl
  · cases hd

/-- The messages to a connection are at most as many as its packets. -/
theorem mine_le {t0 : Tgt13 σ} (hst : ∀ st, (exec st Hub.statusReq13).2.take 4 = [0xfc, 0, 0, 0x10]) {es : List Hub.WEv} {s : Hub.World (Tgt13 σ)}
    (ht : Timely (Tgt13.recv exec) absMax (Hub.World.init t0) [] es = true)
    (hr : (Hub.World.init t0).run (Tgt13.recv exec) absMax es = some s) :
    (mine me s.dc).length ≤ ((casts es).filter fun r => decide (r.2 = me)).length ∧ ∀ m ∈ mine me s.dc, m.code ≠ 5 := by
  obtain ⟨S, E, dn, _, _, _, _, _, _, hpre, hlen, hall⟩ := Hub.C56_order_partial hst ht hr
  constructor
  · unfold mine
    rw [filter_pids s.dc.msgs dn hlen fun i m r hm hr => (hall i m r hm hr).1]
    exact (hpre.filter _).length_le
  · intro m hm
    obtain ⟨i, hi⟩ := List.mem_iff_getElem?.1 (List.mem_filter.1 hm).1
    have hil := (List.getElem?_eq_some_iff.1 hi).1
    obtain ⟨_, ⟨h0, _⟩ | ⟨_, h0⟩⟩ := hall i m (dn[i]'(by omega)) hi (List.getElem?_eq_getElem (by omega))
    · omega
    · omega

theorem WI.step {t0 : Tgt13 σ} {w w' : World (Tgt13 σ)} {l : List Talk} {e : WEv} (ha : a.ip < 2 ^ 32 ∧ a.port < 2 ^ 16)
    (hst : ∀ st, (exec st Hub.statusReq13).2.take 4 = [0xfc, 0, 0, 0x10]) (h : WI exec absMax me p a t0 w l)
    (hs : w.step (Tgt13.recv exec) absMax me p a e = some w') (ht : Timely (Tgt13.recv exec) absMax (Hub.World.init t0) [] w'.evs = true)
    (cs : List (List Bytes)) (hcs : ∀ ps ∈ cs, ps ≠ [] ∧ ∀ q ∈ ps, Spec.Hub.Whole q) (hb : bins [e] = cs.map (Spec.Hub.request a.ip a.port)) :
    ∃ l', WI exec absMax me p a t0 w' l' ∧ asked l' = asked l ++ cs.map fun ps => (ps, p) := by
  have hcast := (h.casts ha).1
  have hnil : ∀ {e : WEv}, bins [e] = [] → bins [e] = cs.map (Spec.Hub.request a.ip a.port) → asked l = asked l ++ cs.map fun ps => (ps, p) := by
    intro e h1 h2
    rw [h1] at h2
    have : cs = [] := by simpa using h2.symm
    subst this
    simp
  cases e with
  | chunk bin =>
    simp only [World.step, Option.some.injEq] at hs
    subst hs
    simp only [bins] at hb
    obtain ⟨ps, rfl⟩ : ∃ ps, cs = [ps] := by
      match cs, hb with
      | [ps], _ => exact ⟨ps, rfl⟩
    simp only [List.map_cons, List.map_nil, List.cons.injEq, and_true] at hb
    subst hb
    have hps := hcs ps (by simp)
    have hw' : ∀ x ∈ asked (l ++ [Talk.ask ps p]), x.2 = p ∧ x.1 ≠ [] ∧ ∀ q ∈ x.1, Spec.Hub.Whole q := by
      intro x hx
      rw [asked_append, List.mem_append] at hx
      rcases hx with hx | hx
      · exact h.whole x hx
      · simp only [asked, List.mem_singleton] at hx
        subst hx
        exact ⟨rfl, hps⟩
    have hbal : ∀ n, (answers ((l ++ [Talk.ask ps p]).take n)).length ≤ ((asked ((l ++ [Talk.ask ps p]).take n)).map (·.1.length)).sum := by
      intro n
      by_cases hn : n ≤ l.length
      · rw [List.take_append_of_le_length hn]; exact h.bal n
      · have h2 := h.bal l.length
        rw [List.take_length] at h2
        rw [List.take_of_length_le (by simp; omega), asked_append, answers_append]
        simp only [answers, asked, List.append_nil, List.map_append, List.sum_append, List.map_cons, List.map_nil, List.sum_cons, List.sum_nil]
        omega
    have htm : w.tm.step (.chunk (Spec.Hub.request a.ip a.port ps) (.pid p)) = TM.init.run ((l ++ [Talk.ask ps p]).map (Talk.ev a)) := by
      rw [List.map_append, TM.run_append, ← h.tm]
      rfl
    have hcast' : (w.tm.step (.chunk (Spec.Hub.request a.ip a.port ps) (.pid p))).casts = w.tm.casts ++ ps.map fun q => (p, q) := by
      rw [htm, (TraMgr.C50_grouping ha _ (fun x hx => (hw' x hx).2) hbal).2.1, hcast, asked_append]
      simp [asked]
    refine ⟨l ++ [Talk.ask ps p], ⟨htm, hw', hbal, ?_, h.got, ?_, ?_, h.net⟩, ?_⟩
    · rw [answers_append]
      simpa [answers] using h.ans
    · simp only [hcast']
      rw [List.take_append_of_le_length h.giv]
      exact h.own
    · have := h.giv
      simp only [hcast', List.length_append]
      omega
    · rw [asked_append]; simp [asked]
  | cast =>
    simp only [World.step] at hs
    cases hc : w.tm.casts[w.given]? with
    | none => rw [hc] at hs; cases hs
    | some x =>
      rw [hc] at hs
      simp only at hs
      cases hd : w.dev (Tgt13.recv exec) absMax (.cast x.2 me) with
      | none => rw [hd] at hs; cases hs
      | some w1 =>
        rw [hd] at hs
        simp only [Option.some.injEq] at hs
        subst hs
        have hlt := (List.getElem?_eq_some_iff.1 hc).1
        have hown : ((Hub.casts (w.evs ++ [.cast x.2 me])).filter fun r => decide (r.2 = me)).map (·.1) =
            (w.tm.casts.take (w.given + 1)).map (·.2) := by
          rw [casts_append, List.filter_append, List.map_append, h.own, List.take_add_one, hc]
          simp [Hub.casts]
        have hg : w1.given = w.given := by rw [← dev_given hd]
        rw [hg]
        exact ⟨l, h.dev hst hd ht (w.given + 1) hlt hown, hnil rfl hb⟩
  | other pkt pid =>
    simp only [World.step] at hs
    by_cases hpid : pid = me
    · rw [if_pos hpid] at hs; cases hs
    · rw [if_neg hpid] at hs
      refine ⟨l, dev_given hs ▸ h.dev hst hs ht w.given h.giv ?_, hnil rfl hb⟩
      rw [casts_append, List.filter_append, List.map_append, h.own]
      simp [Hub.casts, hpid]
  | take =>
    simp only [World.step] at hs
    refine ⟨l, dev_given hs ▸ h.dev hst hs ht w.given h.giv ?_, hnil rfl hb⟩
    rw [casts_append, List.filter_append, List.map_append, h.own]
    simp [Hub.casts]
  | toTarget i junk =>
    simp only [World.step] at hs
    refine ⟨l, dev_given hs ▸ h.dev hst hs ht w.given h.giv ?_, hnil rfl hb⟩
    rw [casts_append, List.filter_append, List.map_append, h.own]
    simp [Hub.casts]
  | toHub i =>
    simp only [World.step] at hs
    refine ⟨l, dev_given hs ▸ h.dev hst hs ht w.given h.giv ?_, hnil rfl hb⟩
    rw [casts_append, List.filter_append, List.map_append, h.own]
    simp [Hub.casts]
  | timeout =>
    simp only [World.step] at hs
    refine ⟨l, dev_given hs ▸ h.dev hst hs ht w.given h.giv ?_, hnil rfl hb⟩
    rw [casts_append, List.filter_append, List.map_append, h.own]
    simp [Hub.casts]
  | response =>
    simp only [World.step] at hs
    cases hm : (mine me w.net.dc)[w.got]? with
    | none => rw [hm] at hs; cases hs
    | some m =>
      rw [hm] at hs
      simp only [Option.some.injEq] at hs
      subst hs
      simp only at ht
      obtain ⟨hle, h5⟩ := mine_le (me := me) hst ht h.net
      rw [if_neg (h5 m (List.mem_of_getElem? hm))]
      have hlt := (List.getElem?_eq_some_iff.1 hm).1
      have hsum : w.tm.casts.length = ((asked l).map (·.1.length)).sum := by
        rw [hcast, List.length_flatMap]
        simp
      have hgiv := h.giv
      have hcount : w.got + 1 ≤ ((asked l).map (·.1.length)).sum := by
        have := congrArg List.length h.own
        rw [List.length_map, List.length_map, List.length_take] at this
        omega
      have hlen := congrArg List.length h.ans
      rw [List.length_map, List.length_take] at hlen
      refine ⟨l ++ [.answer ⟨m.code, m.pkt⟩], ⟨?_, ?_, ?_, ?_, ?_, ?_, ?_, h.net⟩, ?_⟩
      · simp only
        rw [List.map_append, TM.run_append, ← h.tm]
        rfl
      · intro x hx
        rw [asked_append] at hx
        simp only [asked, List.append_nil] at hx
        exact h.whole x hx
      · intro n
        by_cases hn : n ≤ l.length
        · rw [List.take_append_of_le_length hn]; exact h.bal n
        · rw [List.take_of_length_le (by simp; omega), asked_append, answers_append]
          simp only [answers, asked, List.append_nil, List.length_append, List.length_singleton]
          omega
      · simp only
        rw [answers_append, h.ans, List.take_add_one, hm]
        simp [answers]
      · simp only; omega
      · simp only
        have : (w.tm.step (.response ⟨a, m.code, m.pkt⟩)).casts = w.tm.casts := by
          unfold TM.step TM.response
          simp only
          split
          · split
            · split
              · rfl
              · split <;> rfl
            · rfl
          · rfl
        rw [this]
        exact h.own
      · simp only
        have : (w.tm.step (.response ⟨a, m.code, m.pkt⟩)).casts = w.tm.casts := by
          unfold TM.step TM.response
          simp only
          split
          · split
            · split
              · rfl
              · split <;> rfl
            · rfl
          · rfl
        rw [this]
        exact h.giv
      · rw [asked_append]
        have := hnil (e := .response) rfl hb
        simpa [asked] using this

theorem run_evs (es : List WEv) : ∀ (w w' : World (Tgt13 σ)), w.run (Tgt13.recv exec) absMax me p a es = some w' → w.evs <+: w'.evs := by
  induction es with
  | nil => intro w w' h; cases h; exact List.prefix_refl _
  | cons e es ih =>
    intro w w' h
    simp only [World.run] at h
    cases hs : w.step (Tgt13.recv exec) absMax me p a e with
    | none => rw [hs] at h; cases h
    | some w1 =>
      rw [hs] at h
      refine List.IsPrefix.trans ?_ (ih w1 w' h)
      have dev : ∀ {w1 : World (Tgt13 σ)} (x : Hub.WEv), w.dev (Tgt13.recv exec) absMax x = some w1 → w.evs <+: w1.evs := by
        intro w1 x hd
        unfold World.dev at hd
        split at hd
        · cases hd; exact List.prefix_append _ _
        · cases hd
      cases e with
      | chunk bin => simp only [World.step] at hs; cases hs; exact List.prefix_refl _
      | cast =>
        simp only [World.step] at hs
        split at hs
        · split at hs
          · rename_i hd
            cases hs
            have := dev _ hd
            exact this
          · cases hs
        · cases hs
      | other pkt pid =>
        simp only [World.step] at hs
        split at hs
        · cases hs
        · exact dev _ hs
      | take => exact dev _ hs
      | toTarget i junk => exact dev _ hs
      | toHub i => exact dev _ hs
      | timeout => exact dev _ hs
      | response =>
        simp only [World.step] at hs
        split at hs
        · cases hs; exact List.prefix_refl _
        · cases hs

theorem WI.run {t0 : Tgt13 σ} (ha : a.ip < 2 ^ 32 ∧ a.port < 2 ^ 16) (hst : ∀ st, (exec st Hub.statusReq13).2.take 4 = [0xfc, 0, 0, 0x10])
    (es : List WEv) : ∀ (w w' : World (Tgt13 σ)) (l : List Talk) (cs : List (List Bytes)), WI exec absMax me p a t0 w l →
    w.run (Tgt13.recv exec) absMax me p a es = some w' → Timely (Tgt13.recv exec) absMax (Hub.World.init t0) [] w'.evs = true →
    (∀ ps ∈ cs, ps ≠ [] ∧ ∀ q ∈ ps, Spec.Hub.Whole q) → bins es = cs.map (Spec.Hub.request a.ip a.port) →
    ∃ l', WI exec absMax me p a t0 w' l' ∧ asked l' = asked l ++ cs.map fun ps => (ps, p) := by
  induction es with
  | nil =>
    intro w w' l cs h hr _ _ hb
    cases hr
    have : cs = [] := by simpa [bins] using hb.symm
    subst this
    exact ⟨l, h, by simp⟩
  | cons e es ih =>
    intro w w' l cs h hr ht hcs hb
    simp only [World.run] at hr
    cases hs : w.step (Tgt13.recv exec) absMax me p a e with
    | none => rw [hs] at hr; cases hr
    | some w1 =>
      rw [hs] at hr
      have ht1 : Timely (Tgt13.recv exec) absMax (Hub.World.init t0) [] w1.evs = true := by
        obtain ⟨t, hte⟩ := run_evs es w1 w' hr
        rw [← hte] at ht
        exact timely_prefix _ _ _ _ ht
      have hsplit : bins (e :: es) = bins [e] ++ bins es := by cases e <;> rfl
      rw [hsplit] at hb
      have h1 : bins [e] = (cs.take (bins [e]).length).map (Spec.Hub.request a.ip a.port) := by
        rw [List.map_take, ← hb, List.take_left]
      have h2 : bins es = (cs.drop (bins [e]).length).map (Spec.Hub.request a.ip a.port) := by
        rw [List.map_drop, ← hb, List.drop_left]
      obtain ⟨l1, hw1, ha1⟩ := h.step ha hst hs ht1 _ (fun ps hps => hcs ps (List.mem_of_mem_take hps)) h1
      obtain ⟨l2, hw2, ha2⟩ := ih w1 w' l1 _ hw1 hr ht (fun ps hps => hcs ps (List.mem_of_mem_drop hps)) h2
      refine ⟨l2, hw2, ?_⟩
      rw [ha2, ha1, List.append_assoc, ← List.map_append, List.take_append_drop]

end

/-! ## Lists -/

theorem nth_of_filter {α : Type} (f : α → Bool) : ∀ (l : List α) (q : Nat) (x : α), (l.filter f)[q]? = some x →
    ∃ i, l[i]? = some x ∧ f x = true ∧ ((l.take i).filter f).length = q := by
  intro l
  induction l with
  | nil => intro q x h; simp at h
  | cons y l ih =>
    intro q x h
    by_cases hy : f y = true
    · rw [List.filter_cons_of_pos hy] at h
      cases q with
      | zero => simp only [List.getElem?_cons_zero, Option.some.injEq] at h; subst h; exact ⟨0, rfl, hy, rfl⟩
      | succ q =>
        obtain ⟨i, h1, h2, h3⟩ := ih q x h
        exact ⟨i + 1, h1, h2, by rw [List.take_succ_cons, List.filter_cons_of_pos hy, List.length_cons, h3]⟩
    · rw [List.filter_cons_of_neg hy] at h
      obtain ⟨i, h1, h2, h3⟩ := ih q x h
      exact ⟨i + 1, h1, h2, by rw [List.take_succ_cons, List.filter_cons_of_neg hy, h3]⟩

/-- Two lists in strictly increasing order. -/
theorem ordered_sub {α : Type} (k : α → Nat) : ∀ (ys xs : List α), ys.Pairwise (fun x y => k x < k y) → xs.Pairwise (fun x y => k x < k y) →
    (∀ x ∈ xs, x ∈ ys) → xs.Sublist ys := by
  intro ys
  induction ys with
  | nil =>
    intro xs _ _ h
    cases xs with
    | nil => exact .slnil
    | cons x xs => exact absurd (h x (by simp)) (by simp)
  | cons y ys ih =>
    intro xs hy hx h
    cases xs with
    | nil => exact List.nil_sublist _
    | cons x xs =>
      obtain ⟨hy1, hy2⟩ := List.pairwise_cons.1 hy
      obtain ⟨hx1, hx2⟩ := List.pairwise_cons.1 hx
      rcases List.mem_cons.1 (h x (by simp)) with rfl | hxy
      · refine .cons_cons _ (ih xs hy2 hx2 ?_)
        intro z hz
        rcases List.mem_cons.1 (h z (by simp [hz])) with rfl | hz'
        · exact absurd (hx1 _ hz) (by omega)
        · exact hz'
      · refine .cons _ (ih (x :: xs) hy2 hx ?_)
        intro z hz
        have hlt := hy1 x hxy
        rcases List.mem_cons.1 hz with rfl | hz'
        · exact hxy
        · rcases List.mem_cons.1 (h z hz) with rfl | hz2
          · have := hx1 _ hz'; omega
          · exact hz2

/-- Different places. -/
theorem places_le {α : Type} (f : α → Bool) : ∀ (l : List α) (off : Nat) (ks : List Nat), ks.Pairwise (· < ·) →
    (∀ k ∈ ks, off ≤ k ∧ ∃ x, l[k - off]? = some x ∧ f x = true) → ks.length ≤ (l.filter f).length := by
  intro l
  induction l with
  | nil =>
    intro off ks _ h
    cases ks with
    | nil => simp
    | cons k ks =>
      obtain ⟨_, x, hx, _⟩ := h k (by simp)
      simp at hx
  | cons y l ih =>
    intro off ks hk h
    have next : ∀ k, off + 1 ≤ k → (∃ x, (y :: l)[k - off]? = some x ∧ f x = true) → ∃ x, l[k - (off + 1)]? = some x ∧ f x = true := by
      intro k h1 h2
      rw [show k - off = (k - (off + 1)) + 1 by omega, List.getElem?_cons_succ] at h2
      exact h2
    cases ks with
    | nil => simp
    | cons k ks =>
      obtain ⟨hk1, hk2⟩ := List.pairwise_cons.1 hk
      obtain ⟨hoff, x, hx, hfx⟩ := h k (by simp)
      by_cases hko : k = off
      · subst hko
        rw [Nat.sub_self, List.getElem?_cons_zero, Option.some.injEq] at hx
        subst hx
        rw [List.filter_cons_of_pos hfx, List.length_cons, List.length_cons]
        have := ih (k + 1) ks hk2 (fun z hz => ⟨hk1 z hz, next z (hk1 z hz) (h z (by simp [hz])).2⟩)
        omega
      · have := ih (off + 1) (k :: ks) hk (by
          intro z hz
          have hzo : off + 1 ≤ z := by
            rcases List.mem_cons.1 hz with rfl | hz
            · omega
            · have := hk1 z hz; omega
          exact ⟨hzo, next z hzo (h z hz).2⟩)
        refine Nat.le_trans this ?_
        by_cases hy : f y = true
        · rw [List.filter_cons_of_pos hy, List.length_cons]; omega
        · rw [List.filter_cons_of_neg hy]; exact Nat.le_refl _

theorem replies_at {σ : Type} (exec : σ → Bytes → σ × Bytes) : ∀ (l : List Bytes) (st : σ) (n : Nat) (b : Bytes), l[n]? = some b →
    (Hub.replies exec st l)[n]? = some (exec (Hub.final exec st (l.take n)) b).2 := by
  intro l
  induction l with
  | nil => intro st n b h; simp at h
  | cons y l ih =>
    intro st n b h
    cases n with
    | zero => simp only [List.getElem?_cons_zero, Option.some.injEq] at h; subst h; rfl
    | succ n => exact ih _ n b h

theorem final_append {σ : Type} (exec : σ → Bytes → σ × Bytes) (l l' : List Bytes) : ∀ (st : σ),
    Hub.final exec st (l ++ l') = Hub.final exec (Hub.final exec st l) l' := by
  induction l with
  | nil => intro st; rfl
  | cons b l ih => intro st; exact ih _

end Verif.Hub13
