import Verif.Model.Hall
import Verif.Spec.Common
import Verif.Props.C62
/-!
# Several programs, one order: lemmas
-/

set_option autoImplicit false
set_option linter.unusedSimpArgs false

namespace Verif.TraMgr
open Verif.Hub (Bytes)

section
variable {σ : Type} {exec : σ → Bytes → σ × Bytes} {mem : Nat → Bool} {p : Nat} {a : Addr}

/-- The hall as one of its connections sees it. -/
def Hall.side (me : Nat) (h : Hall σ) : World σ := ⟨(h.conn me).tm, h.dc, (h.conn me).taken, (h.conn me).got, h.evs⟩

theorem Hall.side_dev (me : Nat) (h h' : Hall σ) (e : Hub.Ev) (hd : h.dev exec e = some h') : (h.side me).dev exec e = some (h'.side me) := by
  unfold Hall.dev at hd
  unfold World.dev Hall.side
  dsimp only
  cases he : h.dc.step exec e with
  | none => rw [he] at hd; cases hd
  | some dc => rw [he] at hd; cases hd; rfl

theorem Hall.side_set_ne (me i : Nat) (h : Hall σ) (c : Conn) (hne : i ≠ me) : (h.set i c).side me = h.side me := by
  unfold Hall.side Hall.set
  dsimp only
  rw [if_neg (fun e => hne e.symm)]

theorem Hall.side_step (me : Nat) (hme : mem me = true) (h h' : Hall σ) (e : HEv) (hs : h.step exec mem p a e = some h') :
    ∃ es : List WEv, (h.side me).run exec me p a es = some (h'.side me) ∧ bins es = binsOf me [e] := by
  have one : ∀ (w : World σ) (x : WEv), w.step exec me p a x = some (h'.side me) → w.run exec me p a [x] = some (h'.side me) := by
    intro w x hx; simp only [World.run, hx]
  cases e with
  | chunk i bin =>
    simp only [Hall.step] at hs
    split at hs
    · cases hs
      by_cases hi : i = me
      · subst hi
        refine ⟨[.chunk bin], one _ _ ?_, by simp [bins, WEv.bin, binsOf]⟩
        simp [World.step, Hall.side, Hall.set]
      · exact ⟨[], by rw [side_set_ne _ _ _ _ hi]; rfl, by simp [bins, WEv.bin, binsOf, hi]⟩
    · cases hs
  | request i =>
    simp only [Hall.step] at hs
    split at hs
    · cases hc : (h.conn i).tm.casts[(h.conn i).taken]? with
      | none => rw [hc] at hs; cases hs
      | some c =>
        rw [hc] at hs
        simp only at hs
        cases hd : h.dev exec (.request c.2 i) with
        | none => rw [hd] at hs; cases hs
        | some h1 =>
          rw [hd] at hs
          cases hs
          have hsd := side_dev me h h1 _ hd
          have hconn : h1.conn = h.conn := by
            unfold Hall.dev at hd
            cases he : h.dc.step exec (.request c.2 i) with
            | none => rw [he] at hd; cases hd
            | some dc => rw [he] at hd; cases hd; rfl
          by_cases hi : i = me
          · subst hi
            refine ⟨[.request], one _ _ ?_, by simp [bins, WEv.bin, binsOf]⟩
            simp only [World.step]
            rw [show (h.side i).tm.casts[(h.side i).taken]? = some c from hc]
            simp only [hsd]
            simp [Hall.side, Hall.set]
          · refine ⟨[.other c.2 i], one _ _ ?_, by simp [bins, WEv.bin, binsOf]⟩
            simp only [World.step, if_neg hi]
            rw [side_set_ne _ _ _ _ hi]
            exact hsd
    · cases hs
  | other pkt pid =>
    simp only [Hall.step] at hs
    split at hs
    · cases hs
    · rename_i hn
      refine ⟨[.other pkt pid], one _ _ ?_, by simp [bins, WEv.bin, binsOf]⟩
      simp only [World.step]
      rw [if_neg (by rintro rfl; exact hn hme)]
      exact side_dev me h h' _ hs
  | toTarget i junk => exact ⟨[.toTarget i junk], one _ _ (side_dev me h h' _ hs), by simp [bins, WEv.bin, binsOf]⟩
  | toHub i => exact ⟨[.toHub i], one _ _ (side_dev me h h' _ hs), by simp [bins, WEv.bin, binsOf]⟩
  | timeout => exact ⟨[.timeout], one _ _ (side_dev me h h' _ hs), by simp [bins, WEv.bin, binsOf]⟩
  | response i =>
    simp only [Hall.step] at hs
    split at hs
    · cases hm : (h.dc.hub.out.filter (fun m => m.pid = i))[(h.conn i).got]? with
      | none => rw [hm] at hs; cases hs
      | some m =>
        rw [hm] at hs
        cases hs
        by_cases hi : i = me
        · subst hi
          refine ⟨[.response], one _ _ ?_, by simp [bins, WEv.bin, binsOf]⟩
          simp only [World.step]
          rw [show ((h.side i).dc.hub.out.filter (fun m => m.pid = i))[(h.side i).got]? = some m from hm]
          simp [Hall.side, Hall.set]
        · exact ⟨[], by rw [side_set_ne _ _ _ _ hi]; rfl, by simp [bins, WEv.bin, binsOf]⟩
    · cases hs

theorem World.run_append (me : Nat) : ∀ (es fs : List WEv) (w w' : World σ), w.run exec me p a es = some w' → w.run exec me p a (es ++ fs) = w'.run exec me p a fs := by
  intro es
  induction es with
  | nil => intro fs w w' h; simp only [World.run, Option.some.injEq] at h; subst h; rfl
  | cons e es ih =>
    intro fs w w' h
    simp only [World.run, List.cons_append] at h ⊢
    cases he : w.step exec me p a e with
    | none => rw [he] at h; cases h
    | some w1 => rw [he] at h; exact ih fs w1 w' h

/-- Each connection is as in `World`. -/
theorem Hall.side_run (me : Nat) (hme : mem me = true) : ∀ (es : List HEv) (h h' : Hall σ), h.run exec mem p a es = some h' →
    ∃ fs : List WEv, (h.side me).run exec me p a fs = some (h'.side me) ∧ bins fs = binsOf me es := by
  intro es
  induction es with
  | nil => intro h h' hr; simp only [Hall.run, Option.some.injEq] at hr; subst hr; exact ⟨[], rfl, rfl⟩
  | cons e es ih =>
    intro h h' hr
    simp only [Hall.run] at hr
    cases he : h.step exec mem p a e with
    | none => rw [he] at hr; cases hr
    | some h1 =>
      rw [he] at hr
      obtain ⟨f1, r1, b1⟩ := side_step me hme h h1 e he
      obtain ⟨f2, r2, b2⟩ := ih h1 h' hr
      refine ⟨f1 ++ f2, by rw [World.run_append me f1 f2 _ _ r1]; exact r2, ?_⟩
      have : binsOf me (e :: es) = binsOf me [e] ++ binsOf me es := by
        unfold binsOf; rw [← List.filterMap_append]; rfl
      rw [this, ← b1, ← b2]
      unfold bins
      rw [List.flatMap_append]

end

end Verif.TraMgr

namespace Verif
open Spec
open Verif.Hub (Bytes controlRequests Prompt)

section
variable {σ β : Type} {v : Ver}

/-! ### Words by dictation -/

/-- A target that gives the words of a list. -/
def script : Target (List W) := ⟨fun l _ => (l.headD 0#32, l.tail), fun l _ _ => l, fun l _ => (l.headD 0#32, l.tail)⟩

theorem exec_reads (tg : Target σ) (a : Acc) (m : σ) : (a.exec v tg m).1.length = a.gives := by
  cases a <;> rfl

theorem script_acc (a : Acc) (ws rest : List W) (h : ws.length = a.gives) : a.exec .v2 script (ws ++ rest) = (ws, rest) := by
  cases a with
  | wr a d => cases ws with
    | nil => rfl
    | cons w ws => simp [Acc.gives] at h
  | rd a => obtain ⟨w, rfl⟩ := List.length_eq_one_iff.1 h; rfl
  | bits a x o => obtain ⟨w, rfl⟩ := List.length_eq_one_iff.1 h; rfl
  | sum a x => obtain ⟨w, rfl⟩ := List.length_eq_one_iff.1 h; rfl
  | cfg a => obtain ⟨w, rfl⟩ := List.length_eq_one_iff.1 h; rfl

theorem script_accs (tg : Target σ) : ∀ (as : List Acc) (m : σ) (rest : List W), execAccs .v2 script as ((execAccs v tg as m).1 ++ rest) = ((execAccs v tg as m).1, rest) := by
  intro as
  induction as with
  | nil => intro m rest; rfl
  | cons a as ih =>
    intro m rest
    simp only [execAccs, List.append_assoc]
    rw [script_acc a _ _ (exec_reads tg a m), ih]

theorem script_txns (tg : Target σ) : ∀ (ts : List Txn) (m : σ) (rest : List W),
    execTxns .v2 script ts ((execTxns v tg ts m).1.flatten ++ rest) = ((execTxns v tg ts m).1, rest) := by
  intro ts
  induction ts with
  | nil => intro m rest; rfl
  | cons t ts ih =>
    intro m rest
    simp only [execTxns, List.flatten_cons, List.append_assoc]
    rw [script_accs tg, ih]

theorem execAccs_length (tg : Target σ) : ∀ (as : List Acc) (m : σ), (execAccs v tg as m).1.length = (as.map Acc.gives).sum := by
  intro as
  induction as with
  | nil => intro m; rfl
  | cons a as ih =>
    intro m
    simp only [execAccs, List.length_append, List.map_cons, List.sum_cons, ih, exec_reads]

/-- What a program shows depends only on the words. -/
theorem seqRun_show (tg : Target σ) : ∀ (ops : List Op) (m : σ) (rest : List W),
    (seqRun v tg ops m).1 = progShow v ops ((execAccs v tg (progAccs v ops) m).1 ++ rest) ∧ (seqRun v tg ops m).2 = (execAccs v tg (progAccs v ops) m).2 := by
  intro ops
  induction ops with
  | nil => intro m rest; exact ⟨rfl, rfl⟩
  | cons op ops ih =>
    intro m rest
    unfold seqRun progShow
    cases h : opAccs v op with
    | none =>
      have e : progAccs v (op :: ops) = progAccs v ops := by simp [progAccs, h]
      simp only [e]
      exact ⟨by rw [(ih m rest).1], (ih m rest).2⟩
    | some as =>
      have e : progAccs v (op :: ops) = as ++ progAccs v ops := by simp [progAccs, h]
      simp only [e, execAccs_append]
      have hl := execAccs_length (v := v) tg as m
      refine ⟨?_, (ih _ rest).2⟩
      rw [List.append_assoc, List.take_append_of_le_length (by omega), List.take_of_length_le (by omega), List.drop_append_of_le_length (by omega),
        List.drop_of_length_le (by omega), List.nil_append, (ih _ rest).1]

/-! ### The common order -/

theorem commonRun_append (tg : Target σ) (other : σ → β → σ) : ∀ (E F : List (Nat × Deed β)) (m : σ),
    commonRun v tg other (E ++ F) m = ((commonRun v tg other E m).1 ++ (commonRun v tg other F (commonRun v tg other E m).2).1, (commonRun v tg other F (commonRun v tg other E m).2).2) := by
  intro E
  induction E with
  | nil => intro F m; rfl
  | cons e E ih =>
    intro F m
    simp only [List.cons_append, commonRun, ih]

theorem wordsOf_append (i : Nat) (a b : List (Nat × List W)) : wordsOf i (a ++ b) = wordsOf i a ++ wordsOf i b := by
  unfold wordsOf
  rw [List.filter_append, List.flatMap_append]

theorem common_accs (tg : Target σ) (other : σ → β → σ) (i j : Nat) : ∀ (as : List Acc) (m : σ),
    wordsOf i (commonRun v tg other (as.map fun a => (j, Deed.acc a)) m).1 = (if j = i then (execAccs v tg as m).1 else []) ∧
    (commonRun v tg other (as.map fun a => (j, Deed.acc a)) m).2 = (execAccs v tg as m).2 := by
  intro as
  induction as with
  | nil => intro m; exact ⟨by simp [commonRun, wordsOf, execAccs], rfl⟩
  | cons a as ih =>
    intro m
    obtain ⟨h1, h2⟩ := ih (a.exec v tg m).2
    simp only [List.map_cons, commonRun, execAccs, Deed.exec]
    refine ⟨?_, h2⟩
    have : wordsOf i ((j, (a.exec v tg m).1) :: (commonRun v tg other (as.map fun a => (j, Deed.acc a)) (a.exec v tg m).2).1) =
        wordsOf i [(j, (a.exec v tg m).1)] ++ wordsOf i (commonRun v tg other (as.map fun a => (j, Deed.acc a)) (a.exec v tg m).2).1 := by
      rw [← wordsOf_append]; rfl
    rw [this, h1]
    by_cases hj : j = i <;> simp [wordsOf, hj]

/-- The transactions of a packet. -/
def pktTxns (b : Bytes) : List Txn := match parsePacket .v2 (ofLE b) with
  | some (_, l) => l.map (·.2)
  | none => []

/-- What is done for a packet: the accesses, if it is from one of the clients. -/
def block (mem : Nat → Bool) (q : Bytes × Nat) : List (Nat × Deed Bytes) :=
  if mem q.2 then ((pktTxns q.1).flatMap Txn.accs).map fun a => (q.2, .acc a) else [(q.2, .raw (q.1.drop 4))]

theorem pktTxns_fin {c : Cfg} {ip : W} {port : BitVec 16} (hh : c.hub = some (ip, port)) (hv : c.ver = .v2) {f : Fin'} (hf : FinOK c f) : pktTxns (pktBytes (f.buf c)) = f.txns := by
  have hparse := parse_fin hf
  unfold ipbusPart at hparse
  rw [hh, hv] at hparse
  unfold pktTxns pktBytes
  rw [ofLE_wordBytes]
  simp only [Option.isSome_some, if_true] at hparse
  rw [hparse]
  simp [Fin'.txns]

/-- A packet does what its transactions do. -/
def PlainBody (tg : Target σ) (b : Bytes) : Prop := ∀ m, (execBytes tg m (b.drop 4)).1 = (execTxns .v2 tg (pktTxns b) m).2

theorem block_final (tg : Target σ) (mem : Nat → Bool) (q : Bytes × Nat) (h : mem q.2 = true → PlainBody tg q.1) (m : σ) :
    (commonRun .v2 tg (fun m b => (execBytes tg m b).1) (block mem q) m).2 = (execBytes tg m (Hub.bodyOf q)).1 := by
  unfold block
  by_cases hm : mem q.2 = true
  · rw [if_pos hm, (common_accs tg _ 0 q.2 _ m).2, execTxns_flatten]
    exact (h hm m).symm
  · rw [if_neg hm]
    rfl

theorem blocks_final (tg : Target σ) (mem : Nat → Bool) : ∀ (cr : List (Bytes × Nat)) (_ : ∀ q ∈ cr, mem q.2 = true → PlainBody tg q.1) (m : σ),
    (commonRun .v2 tg (fun m b => (execBytes tg m b).1) (cr.flatMap (block mem)) m).2 = Hub.final (execBytes tg) m (cr.map Hub.bodyOf) := by
  intro cr
  induction cr with
  | nil => intro _ m; rfl
  | cons q cr ih =>
    intro h m
    rw [List.flatMap_cons, commonRun_append, List.map_cons, Hub.final]
    rw [block_final tg mem q (h q (by simp)) m]
    exact ih (fun q hq => h q (by simp [hq])) _

/-- The packets of one client in the common order. -/
theorem common_client {c : Cfg} {ip : W} {port : BitVec 16} (hh : c.hub = some (ip, port)) (hv : c.ver = .v2) (hr : Roomy c) (tg : Target σ) (mem : Nat → Bool) (me : Nat)
    (hme : mem me = true) :
    ∀ (cr : List (Bytes × Nat)) (fs : List Fin') (its : List (List W)) (m : σ), (∀ q ∈ cr, mem q.2 = true → PlainBody tg q.1) → (∀ f ∈ fs, FinOK c f) →
    (cr.filter fun q => decide (q.2 = me)).map (·.1) = fs.map (fun f => pktBytes (f.buf c)) → its.length = fs.length →
    (∀ (k : Nat) (f : Fin') (it : List W), cr[k]? = some (pktBytes (f.buf c), me) →
      fs[((cr.take k).filter fun q => decide (q.2 = me)).length]? = some f →
      its[((cr.take k).filter fun q => decide (q.2 = me)).length]? = some it →
      ∃ last, (viaHub c tg ⟨Hub.final (execBytes tg) m ((cr.take k).map Hub.bodyOf), last⟩ (f.buf c).send).1 = some it) →
    ∃ vs, AllSay c fs its vs ∧ (∀ rest, execPks .v2 script (fs.map Fin'.txns) (vs.flatten.flatten ++ rest) = (vs, rest)) ∧
      wordsOf me (commonRun .v2 tg (fun m b => (execBytes tg m b).1) (cr.flatMap (block mem)) m).1 = vs.flatten.flatten ∧
      ((cr.flatMap (block mem)).filter fun e => decide (e.1 = me)).map (·.2) = (pkAccs (fs.map Fin'.txns)).map .acc := by
  intro cr
  induction cr with
  | nil =>
    intro fs its m _ _ hown hlen _
    have : fs = [] := by simpa using hown.symm
    subst this
    have : its = [] := by simpa using hlen
    subst this
    exact ⟨[], trivial, fun _ => rfl, rfl, rfl⟩
  | cons x cr ih =>
    intro fs its m hpl hfin hown hlen hk
    obtain ⟨body, who⟩ := x
    have hpl' : ∀ q ∈ cr, mem q.2 = true → PlainBody tg q.1 := fun q hq => hpl q (by simp [hq])
    have hbf := block_final tg mem (body, who) (hpl _ (by simp)) m
    by_cases hx : who = me
    · subst hx
      rw [List.filter_cons_of_pos (by simp), List.map_cons] at hown
      cases fs with
      | nil => simp at hown
      | cons f fs =>
        cases its with
        | nil => simp at hlen
        | cons it its =>
          rw [List.map_cons] at hown
          injection hown with h1 h2
          simp only at h1
          subst h1
          obtain ⟨b1, b2⟩ := fin_body hh hv hr tg (hfin f (by simp)) m
          obtain ⟨last, h3⟩ := hk 0 f it rfl rfl rfl
          obtain ⟨vs, g1, g2, g3, g4⟩ := ih fs its (execBytes tg m (Hub.bodyOf (pktBytes (f.buf c), who))).1 hpl' (fun f hf => hfin f (by simp [hf])) h2 (by simpa using hlen) (by
            intro k f' it' hk1 hk2 hk3
            obtain ⟨last, h⟩ := hk (k + 1) f' it' hk1
              (by rw [List.take_succ_cons, List.filter_cons_of_pos (by simp), List.length_cons]; exact hk2)
              (by rw [List.take_succ_cons, List.filter_cons_of_pos (by simp), List.length_cons]; exact hk3)
            refine ⟨last, ?_⟩
            rw [List.take_succ_cons, List.map_cons, Hub.final] at h
            exact h)
          have hb : block mem (pktBytes (f.buf c), who) = (f.txns.flatMap Txn.accs).map fun a => (who, .acc a) := by
            unfold block; rw [if_pos hme, pktTxns_fin hh hv (hfin f (by simp))]
          refine ⟨(execTxns c.ver tg f.txns m).1 :: vs, ⟨b2 last it h3, g1⟩, ?_, ?_, ?_⟩
          · intro rest
            simp only [List.map_cons, execPks, List.flatten_cons, List.flatten_append, List.append_assoc]
            rw [script_txns tg, g2]
          · rw [List.flatMap_cons, commonRun_append, wordsOf_append, hbf, g3, hb, (common_accs tg _ who who _ m).1, if_pos rfl, execTxns_flatten, hv, List.flatten_cons,
              List.flatten_append]
          · rw [List.flatMap_cons, List.filter_append, List.map_append, g4, hb, List.map_cons,
              show pkAccs (f.txns :: fs.map Fin'.txns) = f.txns.flatMap Txn.accs ++ pkAccs (fs.map Fin'.txns) from by simp [pkAccs], List.map_append]
            congr 1
            rw [List.filter_eq_self.2 (by intro e he; obtain ⟨a, _, rfl⟩ := List.mem_map.1 he; simp), List.map_map]
            rfl
    · rw [List.filter_cons_of_neg (by simpa using hx)] at hown
      obtain ⟨vs, g1, g2, g3, g4⟩ := ih fs its (execBytes tg m (Hub.bodyOf (body, who))).1 hpl' hfin hown hlen (by
        intro k f' it' hk1 hk2 hk3
        obtain ⟨last, h⟩ := hk (k + 1) f' it' hk1
          (by rw [List.take_succ_cons, List.filter_cons_of_neg (by simpa using hx)]; exact hk2)
          (by rw [List.take_succ_cons, List.filter_cons_of_neg (by simpa using hx)]; exact hk3)
        refine ⟨last, ?_⟩
        rw [List.take_succ_cons, List.map_cons, Hub.final] at h
        exact h)
      have hne : ∀ e ∈ block mem (body, who), e.1 = who := by
        intro e he
        unfold block at he
        split at he
        · obtain ⟨a, _, rfl⟩ := List.mem_map.1 he; rfl
        · rw [List.mem_singleton.1 he]
      refine ⟨vs, g1, g2, ?_, ?_⟩
      · rw [List.flatMap_cons, commonRun_append, wordsOf_append, hbf, g3]
        have : wordsOf me (commonRun .v2 tg (fun m b => (execBytes tg m b).1) (block mem (body, who)) m).1 = [] := by
          unfold block
          split
          · rw [(common_accs tg _ me who _ m).1, if_neg hx]
          · simp [commonRun, wordsOf, hx]
        rw [this, List.nil_append]
      · rw [List.flatMap_cons, List.filter_append, List.map_append, g4, List.filter_eq_nil_iff.2 (by intro e he; simpa [hne e he] using hx)]
        rfl

end

end Verif
