import Verif.Lemmas.InspTarget
import Verif.Lemmas.Wire
import Verif.Lemmas.Demo
/-!
# C70: the packet inspectors

See `/verif/properties.jsonl` and `DESIGN.md`. What packets mean is `Verif/Spec/Txn.lean`; what the log should show is `Verif/Spec/Inspect.lean`.
-/

set_option autoImplicit false
set_option linter.unusedSimpArgs false

namespace Verif.Insp
open Spec

variable {τ : Type}

/-- Consecutive pieces of a text, one for each element of a list. -/
inductive Pieces {α : Type} (R : α → List Str → Prop) : List α → List Str → Prop
  | nil : Pieces R [] []
  | cons {a : α} {l : List α} {x y : List Str} : R a x → Pieces R l y → Pieces R (a :: l) (x ++ y)

/-- The text for the header of the packet: none in IPbus 1.3. -/
def Front (v : Ver) (pid : Nat) (ls : List Str) : Prop :=
  match v with
  | .v1 => ls = []
  | .v2 => ∃ p l, ls = [l] ∧ field p 8 16 = pid ∧ PacketLine p l

/-! ## Texts of whole packets -/

theorem foldl_logged {α : Type} (cs l : List α) : cs.foldl (fun s c => (logged s c).1) l = l ++ cs := by
  induction cs generalizing l with
  | nil => simp
  | cons c cs ih => rw [List.foldl_cons, ih]; simp [logged]

theorem control_ok (p : W) : ∃ l, (HCall.control p).lines = some (.notice, [l]) ∧ (TCall.control p).lines = some (.notice, [l]) ∧ PacketLine p l := by
  obtain ⟨n, n1, n2⟩ := dec_ok (counter p)
  obtain ⟨l, l1, l2⟩ := hexThen_ok p (" | Control (Instruction) Packet Header , Packet Counter ".toList ++ n)
  refine ⟨l, by simp only [HCall.lines, n1, l1, Option.bind_eq_bind, Option.bind_some, Option.pure_def], by simp only [TCall.lines, n1, l1, Option.bind_eq_bind, Option.bind_some, Option.pure_def], n, l2, ?_⟩
  have : (counter p).toNat = field p 8 16 := toNat_field p 8 16 (by decide)
  rw [← this]
  exact n2

theorem host_texts {v : Ver} (cs : List HCall) (txns : List (Nat × Txn)) (h : cs.map HCall.asTxn = txns.map some) (hg : ∀ c ∈ cs, c.good v) :
    ∃ os ls, cs.mapM HCall.lines = some os ∧ (∀ o ∈ os, o.1 = .notice) ∧ ls = os.flatMap (·.2) ∧
      Pieces (fun q x => ∃ hw, TxnLines q.1 q.2 hw x) txns ls ∧ All2 Line (cs.flatMap HCall.words) ls := by
  induction cs generalizing txns with
  | nil =>
    cases txns with
    | nil => exact ⟨[], [], rfl, by simp, rfl, .nil, .nil⟩
    | cons q txns => simp at h
  | cons c cs ih =>
    cases txns with
    | nil => simp at h
    | cons q txns =>
      simp only [List.map_cons, List.cons.injEq] at h
      obtain ⟨os, ls, o1, o2, o3, o4, o5⟩ := ih txns h.2 (fun c hc => hg c (by simp [hc]))
      obtain ⟨hw, x, x1, x2, x3⟩ := HCall.lines_ok (hg c (by simp)) h.1
      refine ⟨(.notice, x) :: os, x ++ ls, ?_, ?_, by simp [o3], .cons ⟨hw, x2⟩ o4, ?_⟩
      · simp only [List.mapM_cons, x1, o1, Option.bind_eq_bind, Option.bind_some, Option.pure_def]
      · intro o ho
        rw [List.mem_cons] at ho
        rcases ho with rfl | ho
        · rfl
        · exact o2 o ho
      · rw [List.flatMap_cons]; exact x3.append o5

theorem target_texts {v : Ver} {l : List (Nat × Txn × List W)} {cs : List TCall} (h : All2 (TCall.fits v) l cs) (hc : ∀ q ∈ l, ∀ a n, q.2.1 ≠ .cfgRead a n) :
    ∃ os ls, cs.mapM TCall.lines = some os ∧ (∀ o ∈ os, o.1 = .notice) ∧ ls = os.flatMap (·.2) ∧
      Pieces (fun q x => ∃ hw, ReplyLines q.1 q.2.1 q.2.2 hw x) l ls ∧ All2 Line (cs.flatMap TCall.words) ls := by
  induction h with
  | nil => exact ⟨[], [], rfl, by simp, rfl, .nil, .nil⟩
  | @cons q c l cs hf _ ih =>
    obtain ⟨os, ls, o1, o2, o3, o4, o5⟩ := ih (fun q hq => hc q (by simp [hq]))
    obtain ⟨hw, x, x1, x2, x3⟩ := TCall.lines_ok hf (hc q (by simp))
    refine ⟨(.notice, x) :: os, x ++ ls, ?_, ?_, by simp [o3], .cons ⟨hw, x2⟩ o4, ?_⟩
    · simp only [List.mapM_cons, x1, o1, Option.bind_eq_bind, Option.bind_some, Option.pure_def]
    · intro o ho
      rw [List.mem_cons] at ho
      rcases ho with rfl | ho
      · rfl
      · exact o2 o ho
    · rw [List.flatMap_cons]; exact x3.append o5

/-! ## The claims -/

/-- What the log shows of a packet with the transactions `txns`: one line for each word, in order and with the value of the word; no complaints; first the packet
header with its id, then each transaction with its name, id, size, address and data. -/
def ShowsPacket (v : Ver) (pid : Nat) (txns : List (Nat × Txn)) (ws : List W) (cs : List HCall) : Prop :=
  ∃ os a b, cs.mapM HCall.lines = some os ∧ (∀ o ∈ os, o.1 = .notice) ∧ hostText cs = some (a ++ b) ∧ All2 Line ws (a ++ b) ∧
    Front v pid a ∧ Pieces (fun q x => ∃ hw, TxnLines q.1 q.2 hw x) txns b

/-- **C70, requests.** For every well-formed request packet with at least one transaction `analyze` returns `true`, has consumed all words, and the log shows
the packet. -/
theorem C70_host (v : Ver) (ws : List W) (pid : Nat) (txns : List (Nat × Txn)) (hp : parsePacket v ws = some (pid, txns)) (hne : txns ≠ []) (cont : Bool) :
    ∃ cs, hostAnalyze v logged cont ws [] = .ret true cs [] ∧ ShowsPacket v pid txns ws cs := by
  obtain ⟨pre, cs, h1, h2, h3, h4, h5⟩ := hostAnalyze_ok v ws pid txns hp hne
  obtain ⟨os, ls, o1, o2, o3, o4, o5⟩ := host_texts cs txns h2 h4
  have h6 := h5 _ logged cont [] (fun _ _ => rfl)
  rw [foldl_logged, List.nil_append] at h6
  refine ⟨_, h6, ?_⟩
  cases v with
  | v1 =>
    cases h1
    refine ⟨os, [], ls, o1, o2, ?_, ?_, rfl, o4⟩
    · simp only [hostText, List.map_nil, List.nil_append, o1, Option.map_some, o3]
    · rw [List.nil_append] at h3 ⊢; rw [← h3]; exact o5
  | v2 =>
    obtain ⟨p, rfl, p2, _⟩ := h1
    obtain ⟨l, l1, _, l2⟩ := control_ok p
    have hm : (([p] : List W).map HCall.control ++ cs).mapM HCall.lines = some ((.notice, [l]) :: os) := by
      simp only [List.map_cons, List.map_nil, List.cons_append, List.nil_append, List.mapM_cons, l1, o1, Option.bind_eq_bind, Option.bind_some, Option.pure_def]
    refine ⟨_, [l], ls, hm, ?_, ?_, ?_, ⟨p, l, rfl, p2, l2⟩, o4⟩
    · intro o ho
      rw [List.mem_cons] at ho
      rcases ho with rfl | ho
      · rfl
      · exact o2 o ho
    · simp only [hostText, hm, Option.map_some, List.flatMap_cons, o3]
    · rw [← h3]
      obtain ⟨n, hs, _⟩ := l2
      exact .cons ⟨_, hs⟩ o5

/-- **C70, programs.** Every packet that a client puts on the wire is shown in this way. -/
theorem C70_program (c : Cfg) (T : Transport τ) (hw : WF c) (hr : Roomy c) (hT : T.Total) (ops : List Op)
    (hops : ∀ op ∈ ops, op.ok c) (t : τ) (rs : List Res) (s : St τ) (hrun : runOps c T ops (St.init t) = some (rs, s)) :
    ∀ b ∈ wire s, ∃ txns cs, parsePacket c.ver (ipbusPart c.hub b) = some (0, txns) ∧
      hostAnalyze c.ver logged true (ipbusPart c.hub b) [] = .ret true cs [] ∧ ShowsPacket c.ver 0 txns (ipbusPart c.hub b) cs := by
  intro b hb
  obtain ⟨rs', s', l0, l, h1, ⟨fs, G, hI⟩, _⟩ := inv_run hw hT ops hops (Inv.init c t)
  rw [hrun] at h1
  cases h1
  suffices hs : ∃ txns, parsePacket c.ver (ipbusPart c.hub b) = some (0, txns) ∧ txns ≠ [] by
    obtain ⟨txns, h2, h3⟩ := hs
    obtain ⟨cs, h4, h5⟩ := C70_host c.ver _ 0 txns h2 h3 true
    exact ⟨txns, cs, h2, h4, h5⟩
  unfold wire at hb
  rw [hI.rep.hist, hI.base, hI.rep.cur] at hb
  simp only [List.map_append, List.mem_append, List.mem_map] at hb
  have hfin : ∀ f, FinOK c f → ∃ txns, parsePacket c.ver (ipbusPart c.hub (f.buf c).send) = some (0, txns) ∧ txns ≠ [] := by
    intro f hf
    refine ⟨_, parse_fin hf, ?_⟩
    have := hf.ne hr
    simp [Fin'.all, this]
  rcases hb with (⟨_, ⟨f, hf, rfl⟩, rfl⟩ | ⟨_, ⟨f, hf, rfl⟩, rfl⟩) | ⟨x, hx, rfl⟩
  · exact hfin f (hI.fin f hf)
  · exact hfin f (hI.rep.doneOK f hf)
  · cases hc : G.cur with
    | none => rw [hc] at hx; simp at hx
    | some g =>
      rw [hc] at hx
      simp only [Option.map_some, Option.toList_some, List.mem_singleton] at hx
      subst hx
      refine ⟨_, parse_items c g.k g.items (hI.rep.curOK g hc).legal, ?_⟩
      simp [hI.rep.ne hr g hc]

/-- Words in front of the transactions of a reply: in IPbus 2.0 the header of a control packet. -/
def Pre (v : Ver) (pre : List W) : Prop :=
  match v with
  | .v1 => pre = []
  | .v2 => ∃ p, pre = [p] ∧ field p 0 4 = 0

/-- What the log shows of a reply. -/
def ShowsReply (v : Ver) (pid : Nat) (l : List (Nat × Txn × List W)) (ws : List W) (cs : List TCall) : Prop :=
  ∃ os a b, cs.mapM TCall.lines = some os ∧ (∀ o ∈ os, o.1 = .notice) ∧ targetText cs = some (a ++ b) ∧ All2 Line ws (a ++ b) ∧
    Front v pid a ∧ Pieces (fun q x => ∃ hw, ReplyLines q.1 q.2.1 q.2.2 hw x) l b

/-- **C70, replies.** For every reply whose headers announce what follows them (with any info codes), without reads of the configuration space. -/
theorem C70_target_partial (v : Ver) (pre ws : List W) (l : List (Nat × Txn × List W)) (hp : FullReply v l ws) (hne : l ≠ [])
    (hpre : Pre v pre)
    (hc : ∀ q ∈ l, ∀ a n, q.2.1 ≠ .cfgRead a n) (cont : Bool) :
    ∃ cs, targetAnalyze v logged cont (pre ++ ws) [] = .ret true cs [] ∧ ShowsReply v (field (pre.headD 0) 8 16) l (pre ++ ws) cs := by
  obtain ⟨cs, c1, c2, c3⟩ := targetRun_ok v hp hne hc
  obtain ⟨os, ls, o1, o2, o3, o4, o5⟩ := target_texts c1 hc
  cases v with
  | v1 =>
    cases hpre
    refine ⟨cs, ?_, os, [], ls, o1, o2, ?_, ?_, rfl, o4⟩
    · rw [targetAnalyze, targetRun, List.nil_append, c3 _ logged cont _ [] (by omega), foldl_logged, List.nil_append]
    · simp only [targetText, List.nil_append, o1, Option.map_some, o3]
    · rw [List.nil_append, List.nil_append, ← c2]; exact o5
  | v2 =>
    obtain ⟨p, rfl, p2⟩ := hpre
    obtain ⟨x, _, l1, l2⟩ := control_ok p
    have hm : (TCall.control p :: cs).mapM TCall.lines = some ((.notice, [x]) :: os) := by
      simp only [List.mapM_cons, l1, o1, Option.bind_eq_bind, Option.bind_some, Option.pure_def]
    refine ⟨.control p :: cs, ?_, _, [x], ls, hm, ?_, ?_, ?_, ⟨p, x, rfl, rfl, l2⟩, o4⟩
    · rw [targetAnalyze]
      simp only [List.cons_append, List.nil_append]
      rw [targetRun]
      simp only [pkt_type p p2, if_true]
      rw [if_neg (by simp [logged])]
      have := c3 _ (logged (α := TCall)) cont (2 * (p :: ws).length + 2) [.control p] (by simp; omega)
      rw [foldl_logged] at this
      exact this
    · intro o ho
      rw [List.mem_cons] at ho
      rcases ho with rfl | ho
      · rfl
      · exact o2 o ho
    · simp only [targetText, hm, Option.map_some, List.flatMap_cons, o3]
    · obtain ⟨n, hs, _⟩ := l2
      rw [← c2]
      exact .cons ⟨_, hs⟩ o5

/-- **C70, replies of the test target.** Every reply of the test target to a packet without reads of the configuration space is shown with the transactions of the
request and the words that they return. -/
theorem C70_dummy_partial {σ : Type} (v : Ver) (tg : Target σ) (d : Dev σ) (ws : List W) (txns : List (Nat × Txn)) (hp : parsePacket v ws = some (0, txns)) (hne : txns ≠ [])
    (hc : ∀ q ∈ txns, ∀ a n, q.2 ≠ .cfgRead a n) (cont : Bool) :
    ∃ r d' cs, dummyReply v tg d ws = (some r, d') ∧ targetAnalyze v logged cont r [] = .ret true cs [] ∧
      ShowsReply v 0 (withData txns (execTxns v tg (txns.map Prod.snd) d.mem).1) r cs := by
  obtain ⟨body, d', h1, h2⟩ := dummyReply_full v tg d ws txns hp hne
  have hlen : ∀ (ts : List Txn) (m : σ), (execTxns v tg ts m).1.length = ts.length := by
    intro ts
    induction ts with
    | nil => intro m; rfl
    | cons t ts ih => intro m; simp [execTxns, ih]
  have hne' : withData txns (execTxns v tg (txns.map Prod.snd) d.mem).1 ≠ [] := by
    intro h
    have h' := congrArg List.length h
    rw [withData, List.length_map, List.length_zip, hlen, List.length_map, Nat.min_self] at h'
    exact hne (List.length_eq_zero_iff.1 h')
  have hc' : ∀ q ∈ withData txns (execTxns v tg (txns.map Prod.snd) d.mem).1, ∀ a n, q.2.1 ≠ .cfgRead a n := by
    intro q hq
    simp only [withData, List.mem_map] at hq
    obtain ⟨x, hx, rfl⟩ := hq
    exact hc x.1 (List.of_mem_zip hx).1
  have hpre : Pre v (pktEcho v ws) ∧ field ((pktEcho v ws).headD 0) 8 16 = 0 := by
    cases v with
    | v1 => exact ⟨rfl, by simp [pktEcho, field]⟩
    | v2 =>
      cases ws with
      | nil => cases hp
      | cons p t =>
        simp only [parsePacket] at hp
        split at hp
        · rename_i hh
          simp only [Option.map_eq_some_iff, Prod.mk.injEq] at hp
          obtain ⟨l, hl, h0, rfl⟩ := hp
          exact ⟨⟨p, rfl, hh.2.2.2⟩, h0⟩
        · cases hp
  obtain ⟨cs, c1, c2⟩ := C70_target_partial v (pktEcho v ws) body _ h2 hne' hpre.1 hc' cont
  rw [hpre.2] at c2
  exact ⟨_, d', cs, h1, c1, c2⟩

/-- **C70, termination.** `analyze` ends on every list of words and for all virtual functions, also when it calls itself again. -/
theorem C70_ends {σ : Type} (v : Ver) (cont : Bool) (ws : List W) (s : σ) :
    (∀ cb, hostAnalyze v cb cont ws s ≠ .spins) ∧ (∀ cb, targetAnalyze v cb cont ws s ≠ .spins) :=
  ⟨fun cb => (hostRun_ends v cb cont _).2 ws s (by cases v <;> simp), fun cb => (targetRun_ends v cb cont _).2 ws s (by cases v <;> simp)⟩

/-! ## What is shown is there -/

theorem hostRun_log (v : Ver) (cont : Bool) (n : Nat) (b : Bool) (ws : List W) (l cs : List HCall) (ok : Bool) (r : List W)
    (h : hostRun v logged cont n b ws l = .ret ok cs r) : ∃ cs', cs = l ++ cs' := by
  induction n generalizing b ws l with
  | zero => rw [hostRun] at h; cases h
  | succ n ih =>
    have step : ∀ b ws c, hostRun v logged cont n b ws (logged l c).1 = .ret ok cs r → ∃ cs', cs = l ++ cs' := by
      intro b ws c h
      obtain ⟨cs', e⟩ := ih _ _ _ h
      exact ⟨c :: cs', by rw [e]; simp [logged]⟩
    have last : ∀ x c y, Out.ret x (logged l c).1 y = .ret ok cs r → ∃ cs', cs = l ++ cs' := by
      intro x c y h
      cases h
      exact ⟨[c], rfl⟩
    rw [hostRun.eq_def] at h
    simp only at h
    cases b with
    | true =>
      simp only at h
      cases v with
      | v1 => exact ih _ _ _ h
      | v2 =>
        cases ws with
        | nil => cases h
        | cons p t =>
          simp only at h
          split at h
          · split at h
            · exact last _ _ _ h
            · exact step _ _ _ h
          · split at h
            · exact last _ _ _ h
            · split at h
              · exact last _ _ _ h
              · exact last _ _ _ h
    | false =>
      simp only at h
      cases ws with
      | nil => cases h
      | cons w t =>
        simp only at h
        cases he : extractHeader v w with
        | none =>
          rw [he] at h
          cases v with
          | v1 => exact last _ _ _ h
          | v2 =>
            simp only at h
            split at h
            · exact step _ _ _ h
            · exact last _ _ _ h
        | some d =>
          rw [he] at h
          simp only at h
          split at h
          · exact last _ _ _ h
          · split at h
            · exact last _ _ _ h
            · cases h
            · split at h
              · exact last _ _ _ h
              · exact step _ _ _ h

theorem hostBody_loose {h : Hdr} {t rest : List W} {r : Req} (w : W) (hb : hostBody h t = some (some (r, rest))) :
    ∃ n txn, (n = h.wc.toNat ∨ ((h.ty = .rmwBits ∨ h.ty = .rmwSum) ∧ n = 1)) ∧ parseBody n t h.ty = some (txn, rest) ∧
      (HCall.txn w h r).asTxn = some (h.id.toNat, txn) := by
  obtain ⟨ty, wc, id, info⟩ := h
  unfold hostBody at hb
  cases ty <;> simp only at hb
  all_goals repeat' split at hb
  all_goals first
    | (cases hb; done)
    | (cases hb; exact ⟨_, _, .inl rfl, rfl, rfl⟩)
    | (cases hb; exact ⟨1, _, .inr ⟨by simp, rfl⟩, rfl, rfl⟩)
    | skip
  · rename_i a t' hle
    cases hb
    exact ⟨wc.toNat, .write true a (t'.take wc.toNat), .inl rfl, by simp only [parseBody]; rw [if_pos hle],
      by simp only [HCall.asTxn]; rw [if_pos (by simp; omega)]⟩
  · rename_i a t' hle
    cases hb
    exact ⟨wc.toNat, .write false a (t'.take wc.toNat), .inl rfl, by simp only [parseBody]; rw [if_pos hle],
      by simp only [HCall.asTxn]; rw [if_pos (by simp; omega)]⟩

/-- A call for a transaction. -/
def HCall.isTxn : HCall → Bool
  | .txn .. => true
  | _ => false

theorem hostRun_sound (v : Ver) (cont : Bool) (n : Nat) (ws : List W) (l cs : List HCall) (ok : Bool) (r : List W)
    (h : hostRun v logged cont n false ws l = .ret ok (l ++ cs) r) (hc : ∀ c ∈ cs, c.isTxn = true) :
    ∃ txns, cs.map HCall.asTxn = txns.map some ∧ Loose v ws txns ∧ r = [] ∧ ok = true ∧ txns ≠ [] := by
  induction n generalizing ws l cs with
  | zero => rw [hostRun] at h; cases h
  | succ n ih =>
    cases ws with
    | nil => rw [hostRun] at h; cases h
    | cons w t =>
      have last : ∀ x c y, Out.ret x (logged l c).1 y = .ret ok (l ++ cs) r → cs = [c] ∧ x = ok ∧ y = r := by
        intro x c y h
        simp only [logged, Out.ret.injEq, List.append_cancel_left_eq] at h
        exact ⟨h.2.1.symm, h.1, h.2.2⟩
      have step : ∀ b ws c, hostRun v logged cont n b ws (logged l c).1 = .ret ok (l ++ cs) r → ∃ cs', cs = c :: cs' := by
        intro b ws c h
        obtain ⟨cs', e⟩ := hostRun_log _ _ _ _ _ _ _ _ _ h
        refine ⟨cs', ?_⟩
        simp only [logged, List.append_assoc, List.append_cancel_left_eq] at e
        exact e
      rw [hostRun] at h
      cases he : extractHeader v w with
      | none =>
        exfalso
        rw [he] at h
        have : ∃ cs', cs = .unparsable w :: cs' := by
          cases v with
          | v1 => exact ⟨_, (last _ _ _ h).1⟩
          | v2 =>
            simp only at h
            split at h
            · exact step _ _ _ h
            · exact ⟨_, (last _ _ _ h).1⟩
        obtain ⟨cs', rfl⟩ := this
        have := hc (.unparsable w) (by simp)
        cases this
      | some d =>
        rw [he] at h
        simp only at h
        split at h
        · obtain ⟨rfl, _⟩ := last _ _ _ h
          have := hc _ (List.mem_singleton.2 rfl)
          cases this
        · rename_i hinfo
          have hinfo : d.info = reqInfo v := by simpa using hinfo
          split at h
          · obtain ⟨rfl, _⟩ := last _ _ _ h
            have := hc _ (List.mem_singleton.2 rfl)
            cases this
          · cases h
          · rename_i q t' hb
            obtain ⟨m, txn, m1, m2, m3⟩ := hostBody_loose w hb
            obtain ⟨e1, e2, e3, e4, e5⟩ := (extractHeader_iff _ _ _).1 he
            have e6 : field w 0 (infoBits v) = reqCode v := by
              rw [← e5, hinfo]
              cases v <;> rfl
            rw [e3] at m1
            rw [e4] at m3
            split at h
            · rename_i hnil
              obtain ⟨rfl, e, rfl⟩ := last _ _ _ h
              subst hnil
              exact ⟨[(_, txn)], by simp [m3], .cons e1 e6 ((tyOf_iff _ _ _).2 e2) m1 m2 .nil, rfl, e.symm, by simp⟩
            · obtain ⟨cs', rfl⟩ := step _ _ _ h
              obtain ⟨txns, t1, t2, t3, t4, _⟩ := ih t' (logged l (.txn w d q)).1 cs' (by rw [h]; simp [logged]) (fun c hc' => hc c (by simp [hc']))
              exact ⟨(_, txn) :: txns, by simp [m3, t1], .cons e1 e6 ((tyOf_iff _ _ _).2 e2) m1 m2 t2, t3, t4, by simp⟩

/-- **C70, other packets.** A packet without complaints (calls for the header of a control packet and for transactions only) consists of the transactions shown,
up to the bits that `Loose` leaves open (`C70_violated_header`). -/
theorem C70_sound_partial (v : Ver) (cont ok : Bool) (ws r : List W) (pre cs : List HCall) (h : hostAnalyze v logged cont ws [] = .ret ok (pre ++ cs) r)
    (hp : match v with | .v1 => pre = [] | .v2 => ∃ p, pre = [.control p]) (hc : ∀ c ∈ cs, c.isTxn = true) :
    ∃ txns, cs.map HCall.asTxn = txns.map some ∧ txns ≠ [] ∧ r = [] ∧ ok = true ∧
      match v with
      | .v1 => Loose v ws txns
      | .v2 => ∃ p t, ws = p :: t ∧ pre = [.control p] ∧ field p 0 4 = 0 ∧ Loose v t txns := by
  unfold hostAnalyze at h
  cases v with
  | v1 =>
    simp only at hp
    subst hp
    rw [hostRun] at h
    obtain ⟨txns, t1, t2, t3, t4, t5⟩ := hostRun_sound .v1 cont _ ws [] cs ok r h hc
    exact ⟨txns, t1, t5, t3, t4, t2⟩
  | v2 =>
    simp only at hp
    obtain ⟨p, rfl⟩ := hp
    cases ws with
    | nil => rw [hostRun] at h; cases h
    | cons q t =>
      rw [hostRun] at h
      simp only at h
      split at h
      · rename_i hq
        simp only [logged, Bool.true_eq_false, if_false] at h
        obtain ⟨cs', e⟩ := hostRun_log _ _ _ _ _ _ _ _ _ h
        simp only [List.nil_append, List.cons_append, List.cons.injEq, HCall.control.injEq] at e
        obtain ⟨rfl, rfl⟩ := e
        obtain ⟨txns, t1, t2, t3, t4, t5⟩ := hostRun_sound .v2 cont _ t [.control p] cs ok r h hc
        refine ⟨txns, t1, t5, t3, t4, p, t, rfl, rfl, ?_, t2⟩
        have := congrArg BitVec.toNat hq
        have h4 : (p &&& 0xF#32).toNat = p.toNat % 16 := toNat_and_mask p 4 (by decide)
        rw [h4] at this
        simpa [field] using this
      · exfalso
        repeat' split at h
        all_goals simp [logged] at h

/-- **C70, other packets.** Status, resend and unknown packets of IPbus 2.0: one line, which shows the header. -/
theorem C70_other (cont : Bool) (p : W) (t : List W) (h0 : field p 0 4 ≠ 0) :
    ∃ c l title, hostAnalyze .v2 logged cont (p :: t) [] = .ret (decide (field p 0 4 ≤ 2)) [c] (if field p 0 4 ≤ 2 then [] else t) ∧
      c.lines = some (if field p 0 4 ≤ 2 then .notice else .error, [l]) ∧ Shows l p title ∧
      title = (if field p 0 4 = 1 then " | Status Packet Header" else if field p 0 4 = 2 then " | Resend Request Packet Header" else " | Unknown Packet Header").toList := by
  have h4 : (p &&& 0xF#32).toNat = field p 0 4 := by
    have h4 : (p &&& 0xF#32).toNat = p.toNat % 16 := toNat_and_mask p 4 (by decide)
    simpa [field] using h4
  have hk : ∀ k : Nat, k < 16 → ((p &&& 0xF#32 = BitVec.ofNat 32 k) ↔ field p 0 4 = k) := by
    intro k hk
    rw [← h4]
    constructor
    · intro h; rw [h, BitVec.toNat_ofNat]; omega
    · intro h; apply BitVec.eq_of_toNat_eq; rw [h, BitVec.toNat_ofNat]; omega
  unfold hostAnalyze
  rw [hostRun]
  simp only
  rw [if_neg (by rw [hk 0 (by decide)]; exact h0)]
  by_cases h1 : field p 0 4 = 1
  · rw [if_pos ((hk 1 (by decide)).2 h1), h1]
    obtain ⟨l, l1, l2⟩ := hexThen_ok p " | Status Packet Header".toList
    exact ⟨.status p, l, _, rfl, by simp only [HCall.lines, l1, Option.bind_eq_bind, Option.bind_some, Option.pure_def]; rfl, l2, rfl⟩
  · rw [if_neg (by rw [hk 1 (by decide)]; exact h1)]
    by_cases h2 : field p 0 4 = 2
    · rw [if_pos ((hk 2 (by decide)).2 h2), h2]
      obtain ⟨l, l1, l2⟩ := hexThen_ok p " | Resend Request Packet Header".toList
      exact ⟨.resend p, l, _, rfl, by simp only [HCall.lines, l1, Option.bind_eq_bind, Option.bind_some, Option.pure_def]; rfl, l2, rfl⟩
    · rw [if_neg (by rw [hk 2 (by decide)]; exact h2)]
      have h3 : ¬ field p 0 4 ≤ 2 := by omega
      rw [if_neg h3, if_neg h3, if_neg h1, if_neg h2, decide_eq_false h3]
      obtain ⟨l, l1, l2⟩ := hexThen_ok p " | Unknown Packet Header".toList
      exact ⟨.unknownPacket p, l, _, rfl, by simp only [HCall.lines, l1, Option.bind_eq_bind, Option.bind_some, Option.pure_def], l2, rfl⟩

/-! ## Violations -/

/-- **C70 does not hold for reads of the configuration space.** The reply of the test target to such a read is called unknown. -/
theorem C70_violated_config :
    (dummyReply .v2 (dummyTarget id) ⟨id, 0x200000F0⟩ [0x200000F0, 0x2000016F, 5]).1 = some [0x200000F0, 0x20000160, 5] ∧
    targetAnalyze .v2 logged true [0x200000F0, 0x20000160, 5] [] =
      .ret false [.control 0x200000F0, .unknownType 0x20000160 ⟨.configRead, 1, 0, 0⟩] [5] ∧
    (TCall.unknownType 0x20000160 ⟨.configRead, 1, 0, 0⟩).lines = some (.error, ["0x20000160 | Unknown Transaction Header".toList]) := by
  refine ⟨by decide +kernel, by decide +kernel, by decide +kernel⟩

/-- **C70 does not hold for short packets.** A control packet that consists of its header only, and a reply to a failed read, with the word count of the request
but without data (bus error): words behind the end of the packet are read. -/
theorem C70_violated_short :
    hostAnalyze .v2 logged true [0x200000F0] [] = .ub ∧ targetAnalyze .v2 logged true [0x200000F0, 0x20000304] [] = .ub ∧
    hostAnalyze .v2 logged true [0x200000F0, 0x2000021F, 0x10, 7] [] = .ub := by
  refine ⟨by decide +kernel, by decide +kernel, by decide +kernel⟩

/-- **Packet headers are not checked.** Version and byte-order field of the packet header are not looked at: a header of a version 7 is shown as that of a control
packet, and so is the header of a byte-swapped one (`0x200000F0` from a host with the other byte order). -/
theorem C70_violated_header :
    hostAnalyze .v2 logged true [0x70000000, 0x2000010F, 0x10] [] = .ret true [.control 0x70000000, .txn 0x2000010F ⟨.read, 1, 0, 0xF⟩ (.read 0x10)] [] ∧
    parsePacket .v2 [0x70000000, 0x2000010F, 0x10] = none ∧
    hostAnalyze .v2 logged false [0xF0000020, 0x0F010020] [] = .ret true [.control 0xF0000020, .unparsable 0x0F010020] [0x0F010020] := by
  refine ⟨by decide +kernel, by decide +kernel, by decide +kernel⟩

/-! ## Examples -/

/-- A packet with a read, a block write and a read-modify-write, and its text. -/
example : parsePacket .v2 [0x200012F0, 0x2000020F, 0x10, 0x2001021F, 0x20, 0xAB, 0xCD, 0x2002015F, 0x30, 7] =
      some (0x12, [(0, .read true 0x10 2), (1, .write true 0x20 [0xAB, 0xCD]), (2, .rmwSum 0x30 7)]) := by decide +kernel

example : (match hostAnalyze .v2 logged true [0x200012F0, 0x2000020F, 0x10, 0x2001021F, 0x20, 0xAB, 0xCD, 0x2002015F, 0x30, 7] [] with
    | .ret true cs [] => hostText cs
    | _ => none) = some ["0x200012F0 | Control (Instruction) Packet Header , Packet Counter 18".toList, "0x2000020F | Incrementing read, size 2, transaction ID 0".toList,
      "0x00000010 |  > Address".toList, "0x2001021F | Incrementing write, size 2, transaction ID 1".toList, "0x00000020 |  > Address".toList,
      "0x000000AB |  > Data [0]".toList, "0x000000CD |  > Data [1]".toList, "0x2002015F | Read-modify-write sum, transaction ID 2".toList,
      "0x00000030 |  > Address".toList, "0x00000007 |  > Addend".toList] := by decide +kernel

/-- A reply. -/
example : FullReply .v2 [(0, .read true 0x10 2, [5, 6]), (1, .write true 0x20 [0xAB], [])] [0x20000200, 5, 6, 0x20010110] :=
  .cons (ds := [5, 6]) (by decide) (by decide) (by decide) rfl (by decide) (.cons (ds := []) (by decide) (by decide) (by decide) rfl (by decide) .nil)

example : (match targetAnalyze .v1 logged true [0x100000FC, 0x10020218, 5, 6] [] with
    | .ret true cs [] => targetText cs
    | _ => none) = some ["0x100000FC | BOT, transaction ID 0".toList, "0x10020218 | Incrementing read, size 2, transaction ID 1".toList,
      "0x00000005 |  > Data [0]".toList, "0x00000006 |  > Data [1]".toList] := by decide +kernel

/-- An unparsable header: with `aContinueOnError` it is read as a packet header. -/
example : hostAnalyze .v2 logged true [0x200000F0, 0x2000010F, 0x10, 0x200013F2] [] =
    .ret true [.control 0x200000F0, .txn 0x2000010F ⟨.read, 1, 0, 0xF⟩ (.read 0x10), .unparsable 0x200013F2, .resend 0x200013F2] [] := by decide +kernel

/-- What `Loose` leaves open: a reply header of IPbus 1.3 is taken for a request, and a read-modify-write of seven words is shown as any other. -/
theorem C70_violated_lenient :
    hostAnalyze .v1 logged true [0x1000011C, 4] [] = .ret true [.txn 0x1000011C ⟨.read, 1, 0, 0⟩ (.read 4)] [] ∧ parsePacket .v1 [0x1000011C, 4] = none ∧
    hostAnalyze .v2 logged true [0x200000F0, 0x2000075F, 4, 5] [] = .ret true [.control 0x200000F0, .txn 0x2000075F ⟨.rmwSum, 7, 0, 0xF⟩ (.rmwSum 4 5)] [] ∧
    parsePacket .v2 [0x200000F0, 0x2000075F, 4, 5] = none := by
  refine ⟨by decide +kernel, by decide +kernel, by decide +kernel, by decide +kernel⟩

/-- The hypotheses of `C70_sound_partial` and `C70_other`. -/
example : hostAnalyze .v2 logged false [0x200000F0, 0x2000010F, 0x10, 0x2001015F, 4, 5] [] =
    .ret true ([.control 0x200000F0] ++ [.txn 0x2000010F ⟨.read, 1, 0, 0xF⟩ (.read 0x10), .txn 0x2001015F ⟨.rmwSum, 1, 1, 0xF⟩ (.rmwSum 4 5)]) [] ∧
    field 0x200000F1 0 4 = 1 ∧ field 0x200012F2 0 4 = 2 ∧ field 0x200000F3 0 4 = 3 := by
  refine ⟨by decide +kernel, by decide +kernel, by decide +kernel, by decide +kernel⟩

end Verif.Insp
