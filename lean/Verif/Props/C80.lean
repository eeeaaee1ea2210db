import Verif.Lemmas.Common
/-!
# C80: programs of several clients through one ControlHub

See `/verif/properties.jsonl` and `DESIGN.md`. Any number of uHAL clients over TCP (`Verif/Model/Client.lean`, `Verif/Model/Tcp.lean`), each with a connection of its own to the ControlHub
(`Verif/Model/Hall.lean`), which has an unreliable network behind it, and one target. The clients and the ControlHub are connected by nothing but the bytes on the sockets.
-/

set_option autoImplicit false
set_option linter.unusedSimpArgs false

namespace Verif
open Spec
open Verif.Hub (Bytes controlRequests Prompt)
open Verif.TraMgr (Hall HEv binsOf)

/-- A client with a program, and a run of it. -/
structure Prog where
  c : Cfg
  n : Nat
  N : Nat
  ops : List Op
  plan : List (List TEv × Bool)
  rs : List Res
  s : St TcpT

/-- The client is a TCP client for the target at this address behind a ControlHub, IPbus 2.0; this is a run of the program, in which no call fails (masked writes may be refused). -/
structure Prog.Ok (ip : W) (port : BitVec 16) (x : Prog) : Prop where
  par : TPar x.n x.N
  wf : WF x.c
  cap : CapOK x.c
  roomy : Roomy x.c
  hub : x.c.hub = some (ip, port)
  ver : x.c.ver = .v2
  max : x.c.maxSend.toNat < 4 * 2 ^ 16
  ops : ∀ op ∈ x.ops, op.ok x.c ∧ op.maskOK x.c.wrapNeg
  run : runOps x.c (tcpT x.c x.n x.N) (x.ops ++ [.dispatch]) (St.init (TcpT.init x.plan)) = some (x.rs, x.s)
  fine : ∀ e, .exc e ∈ x.rs → e = .bitsForbidden

/-- What the user of a client sees. -/
def Prog.shown (x : Prog) : List (Option ValOut) := x.rs.map (resShow x.c.wrapNeg x.s.tr.u.heap)

/-- The word accesses of the program. -/
def Prog.accs (x : Prog) : List Acc := x.ops.flatMap fun op => (opAccs .v2 op).getD []

section
variable {ip : W} {port : BitVec 16} {σ : Type}

/-- **C80.** Any number of clients, each with its own program, configuration, schedule and connection, other users of the ControlHub besides; the ControlHub and its network do anything. If no
call of these clients fails, then there is one order `E` of the word accesses of all of them and of the packets of others, in which the accesses of each packet are together, such that each
client has its accesses in the order of its program, sees what they give at their places in this order, and the target ends with the memory after all of it.
`_partial`: one device client, and late datagrams, as for C42. -/
theorem C80_common_partial (clients : Nat → Option Prog) (hok : ∀ i x, clients i = some x → x.Ok ip port)
    (tg : Target σ) {t0 : Hub.Tgt σ} {absMax L p : Nat} (hd : 0 < t0.depth) (hmx : 0 < absMax)
    (hb : L + min t0.depth absMax + 2 * t0.depth < 65535) (h0 : Hub.RecentHist t0) {es : List HEv} {h : Hall σ}
    (hrun : (Hall.init t0 absMax).run (execBytes tg) (fun i => (clients i).isSome) p (hubAddr ip port) es = some h)
    (hp : Prompt (execBytes tg) L (Hub.start t0 absMax) h.evs)
    (hto : ∀ i x, clients i = some x → binsOf i es <+: x.s.tr.u.wire.map fun f => wordBytes f.words)
    (hfrom : ∀ i x, clients i = some x → x.s.tr.u.rx.map wordBytes <+: (h.conn i).tm.sent) :
    ∃ E : List (Nat × Deed Bytes),
      (∀ i x, clients i = some x →
        (E.filter fun e => decide (e.1 = i)).map (·.2) = x.accs.map .acc ∧
        x.shown = (progShow .v2 (x.ops ++ [.dispatch]) (wordsOf i (commonRun .v2 tg (fun m b => (execBytes tg m b).1) E t0.st).1)).map (Option.map ValOut.data)) ∧
      (E.filter fun e => (clients e.1).isNone) =
        ((controlRequests h.evs).filter fun q => (clients q.2).isNone).map (fun q => (q.2, .raw (Hub.bodyOf q))) ∧
      (∃ B : List (List (Nat × Deed Bytes)), E = B.flatten ∧ B.length = (controlRequests h.evs).length ∧
        ∀ (k : Nat) (b : List (Nat × Deed Bytes)) (q : Bytes × Nat), B[k]? = some b → (controlRequests h.evs)[k]? = some q → ∀ e ∈ b, e.1 = q.2) ∧
      (commonRun .v2 tg (fun m b => (execBytes tg m b).1) E t0.st).2 = Hub.final (execBytes tg) t0.st ((controlRequests h.evs).map Hub.bodyOf) := by
  have hside : ∀ i x, clients i = some x → ∃ fs : List TraMgr.WEv, (TraMgr.World.init t0 absMax).run (execBytes tg) i p (hubAddr ip port) fs = some (h.side i) ∧
      TraMgr.bins fs = binsOf i es := fun i x hx => Hall.side_run i (by simp [hx]) es _ _ hrun
  have hcore := fun (i : Nat) (x : Prog) (hx : clients i = some x) =>
    shared_core (hok i x hx).par (hok i x hx).wf (hok i x hx).cap (hok i x hx).roomy (hok i x hx).hub (hok i x hx).ver (hok i x hx).max x.ops (hok i x hx).ops x.plan x.rs x.s
      (hok i x hx).run (hok i x hx).fine tg hd hmx hb h0 (w := h.side i) (Classical.choose_spec (hside i x hx)).1 hp
      (by rw [(Classical.choose_spec (hside i x hx)).2]; exact hto i x hx) (hfrom i x hx)
  have hplain : ∀ q ∈ controlRequests h.evs, (clients q.2).isSome = true → PlainBody tg q.1 := by
    intro q hq hs
    obtain ⟨x, hx⟩ := Option.isSome_iff_exists.1 hs
    have ho := hok q.2 x hx
    obtain ⟨fs, its, hfin, hown, _⟩ := hcore q.2 x hx
    have hm : q.1 ∈ ((controlRequests h.evs).filter fun y => decide (y.2 = q.2)).map (·.1) := List.mem_map.2 ⟨q, List.mem_filter.2 ⟨hq, by simp⟩, rfl⟩
    have hown' : ((controlRequests h.evs).filter fun y => decide (y.2 = q.2)).map (·.1) = fs.map (fun f => pktBytes (f.buf x.c)) := hown
    rw [hown'] at hm
    obtain ⟨f, hf, he⟩ := List.mem_map.1 hm
    intro m
    have := (fin_body ho.hub ho.ver ho.roomy tg (hfin f hf) m).1
    rw [← he, this, pktTxns_fin ho.hub ho.ver (hfin f hf), ho.ver]
  refine ⟨(controlRequests h.evs).flatMap (block fun i => (clients i).isSome), ?_, ?_, ?_, blocks_final tg _ _ hplain _⟩
  · intro i x hx
    have ho := hok i x hx
    obtain ⟨fs, its, hfin, hown, hlen, hk, haccs, hshow⟩ := hcore i x hx
    obtain ⟨vs, g1, g2, g3, g4⟩ := common_client ho.hub ho.ver ho.roomy tg (fun i => (clients i).isSome) i (by simp [hx]) (controlRequests h.evs) fs its t0.st hplain hfin hown hlen hk
    have hpa : progAccs x.c.ver (x.ops ++ [.dispatch]) = x.accs := by
      rw [ho.ver]; simp [progAccs, Prog.accs, opAccs]
    refine ⟨by rw [g4, haccs, hpa], ?_⟩
    obtain ⟨k1, k2⟩ := hshow _ script (vs.flatten.flatten ++ []) vs g1 (by rw [ho.ver, g2])
    rw [ho.ver] at k1
    rw [Prog.shown, k1, g3, List.append_nil]
    have e := (seqRun_show (v := .v2) script (x.ops ++ [.dispatch]) vs.flatten.flatten []).1
    have hp2 : (execAccs .v2 script (pkAccs (fs.map Fin'.txns)) vs.flatten.flatten).1 = vs.flatten.flatten := by
      have key : ∀ (ps : List (List Txn)) (ws : List W), (execAccs .v2 script (pkAccs ps) ws).1 = (execPks .v2 script ps ws).1.flatten.flatten ∧
          (execAccs .v2 script (pkAccs ps) ws).2 = (execPks .v2 script ps ws).2 := by
        intro ps
        induction ps with
        | nil => intro ws; exact ⟨rfl, rfl⟩
        | cons t ps ih =>
          intro ws
          rw [show pkAccs (t :: ps) = t.flatMap Txn.accs ++ pkAccs ps from by simp [pkAccs], execAccs_append, execTxns_flatten]
          simp only [execPks, List.flatten_cons, List.flatten_append]
          exact ⟨by rw [(ih _).1], (ih _).2⟩
      have := g2 []
      rw [List.append_nil] at this
      rw [(key _ _).1, this]
    rw [haccs, ho.ver] at hp2
    rw [hp2, List.append_nil] at e
    rw [e]
  · generalize controlRequests h.evs = cr
    induction cr with
    | nil => rfl
    | cons q cr ih =>
      rw [List.flatMap_cons, List.filter_append, ih]
      unfold block
      cases hq : (clients q.2).isSome with
      | true =>
        have hn : (clients q.2).isNone = false := by cases hc : clients q.2 <;> rw [hc] at hq <;> simp_all
        rw [if_pos (by exact hq), List.filter_cons_of_neg (by simp [hn]), List.filter_eq_nil_iff.2]
        · rfl
        · intro e he
          obtain ⟨a, _, rfl⟩ := List.mem_map.1 he
          simp [hn]
      | false =>
        have hn : (clients q.2).isNone = true := by cases hc : clients q.2 <;> rw [hc] at hq <;> simp_all
        rw [if_neg (by simp [hq]), List.filter_cons_of_pos (by simp [hn]), List.filter_cons_of_pos (by simp [hn])]
        rfl
  · refine ⟨(controlRequests h.evs).map (block fun i => (clients i).isSome), by rw [List.flatMap], by simp, ?_⟩
    intro k b q hb' hq e he
    rw [List.getElem?_map, hq] at hb'
    cases hb'
    unfold block at he
    split at he
    · obtain ⟨a, _, rfl⟩ := List.mem_map.1 he; rfl
    · rw [List.mem_singleton.1 he]

/-! ### Read-modify-write by several clients -/

/-- What is added to a register of the test target. -/
def addend (r : W) : Acc → Nat
  | .sum a x => if accReg (.sum a x) = r then x.toNat else 0
  | _ => 0

def deedAddend (r : W) : Deed Bytes → Nat
  | .acc a => Verif.addend r a
  | .raw _ => 0

/-- The register is changed by nothing but additions. -/
def OnlySums (r : W) (a : Acc) : Prop := accReg a = r → (∃ b, a = .rd b) ∨ (∃ b, a = .cfg b) ∨ ∃ b x, a = .sum b x

theorem commonRun_sum (cfg : W → W) (other : (W → W) → Bytes → W → W) (r : W) : ∀ (E : List (Nat × Deed Bytes)) (m : W → W),
    (∀ e ∈ E, ∀ a, e.2 = .acc a → OnlySums r a) → (∀ e ∈ E, ∀ b, e.2 = .raw b → ∀ m : W → W, other m b r = m r) →
    ((commonRun .v2 (dummyTarget cfg) other E m).2 r).toNat = ((m r).toNat + (E.map fun e => deedAddend r e.2).sum) % 2 ^ 32 := by
  intro E
  induction E with
  | nil => intro m _ _; simp [commonRun, Nat.mod_eq_of_lt (m r).isLt]
  | cons e E ih =>
    intro m h1 h2
    obtain ⟨i, d⟩ := e
    rw [commonRun]
    simp only [List.map_cons, List.sum_cons]
    rw [ih _ (fun e he => h1 e (by simp [he])) (fun e he => h2 e (by simp [he]))]
    have step : ((d.exec .v2 (dummyTarget cfg) other m).2 r).toNat = ((m r).toNat + deedAddend r d) % 2 ^ 32 := by
      have keep : ∀ x : W, x.toNat = (x.toNat + 0) % 2 ^ 32 := fun x => by rw [Nat.add_zero, Nat.mod_eq_of_lt x.isLt]
      cases d with
      | raw b =>
        simp only [Deed.exec, deedAddend]
        rw [h2 (i, .raw b) (by simp) b rfl m]
        exact keep _
      | acc a =>
        have ho := h1 (i, .acc a) (by simp) a rfl
        simp only [Deed.exec, deedAddend]
        cases a with
        | rd a => exact keep _
        | cfg a => exact keep _
        | wr a x =>
          simp only [Acc.exec, dummyTarget, Verif.addend]
          split
          · rename_i he
            rcases ho he.symm with ⟨_, h⟩ | ⟨_, h⟩ | ⟨_, _, h⟩ <;> cases h
          · exact keep _
        | bits a x o =>
          simp only [Acc.exec, dummyTarget, Verif.addend]
          split
          · rename_i he
            rcases ho he.symm with ⟨_, h⟩ | ⟨_, h⟩ | ⟨_, _, h⟩ <;> cases h
          · exact keep _
        | sum a x =>
          simp only [Acc.exec, dummyTarget, Verif.addend]
          split
          · rename_i he
            rw [if_pos (show accReg (.sum a x) = r from he.symm), ← he, BitVec.toNat_add]
          · rename_i he
            rw [if_neg (show ¬ accReg (.sum a x) = r from fun h => he h.symm)]
            exact keep _
    rw [step]
    omega

theorem sum_single : ∀ (ids : List Nat), ids.Nodup → ∀ (j : Nat), j ∈ ids → ∀ (a : Nat) (g : Nat → Nat),
    (ids.map fun i => (if j = i then a else 0) + g i).sum = a + (ids.map g).sum := by
  have none : ∀ (ids : List Nat) (j : Nat), j ∉ ids → ∀ (a : Nat) (g : Nat → Nat), (ids.map fun i => (if j = i then a else 0) + g i).sum = (ids.map g).sum := by
    intro ids
    induction ids with
    | nil => intro j _ a g; rfl
    | cons i ids ih =>
      intro j hj a g
      simp only [List.mem_cons, not_or] at hj
      rw [List.map_cons, List.sum_cons, List.map_cons, List.sum_cons, if_neg hj.1, ih j hj.2]
      omega
  intro ids
  induction ids with
  | nil => intro _ j hj; simp at hj
  | cons i ids ih =>
    intro hn j hj a g
    rw [List.map_cons, List.sum_cons, List.map_cons, List.sum_cons]
    by_cases h : j = i
    · subst h
      rw [if_pos rfl, none ids j (List.nodup_cons.1 hn).1]
      omega
    · rw [if_neg h, ih (List.nodup_cons.1 hn).2 j (by simpa [h] using hj)]
      omega

/-- A sum over all, by clients. -/
theorem sum_clients {α : Type} (ids : List Nat) (hn : ids.Nodup) (f : α → Nat) : ∀ (E : List (Nat × α)), (∀ e ∈ E, e.1 ∈ ids ∨ f e.2 = 0) →
    (E.map fun e => f e.2).sum = (ids.map fun i => (((E.filter fun e => decide (e.1 = i)).map (·.2)).map f).sum).sum := by
  intro E
  induction E with
  | nil =>
    intro _
    clear hn
    induction ids with
    | nil => rfl
    | cons i ids ih => simpa using ih
  | cons e E ih =>
    intro h
    rw [List.map_cons, List.sum_cons, ih (fun x hx => h x (by simp [hx]))]
    have hs : ∀ i, ((((e :: E).filter fun e => decide (e.1 = i)).map (·.2)).map f).sum =
        (if e.1 = i then f e.2 else 0) + (((E.filter fun e => decide (e.1 = i)).map (·.2)).map f).sum := by
      intro i
      by_cases hi : e.1 = i
      · rw [List.filter_cons_of_pos (by simpa using hi), if_pos hi]; simp
      · rw [List.filter_cons_of_neg (by simpa using hi), if_neg hi]; simp
    simp only [hs]
    rcases h e (by simp) with he | he
    · rw [sum_single ids hn e.1 he]
    · simp only [he, ite_self, Nat.zero_add]

/-- **C80, no addition is lost.** On the test target: nobody changes a register other than by adding to it; the clients are in the list `ids`. Then the register ends with its value plus all that has been added, by
all clients together. -/
theorem C80_sum_partial (clients : Nat → Option Prog) (ids : List Nat) (hn : ids.Nodup) (hids : ∀ i, (clients i).isSome = true ↔ i ∈ ids)
    (hok : ∀ i x, clients i = some x → x.Ok ip port) (cfg : W → W) {t0 : Hub.Tgt (W → W)} {absMax L p : Nat} (hd : 0 < t0.depth) (hmx : 0 < absMax)
    (hb : L + min t0.depth absMax + 2 * t0.depth < 65535) (h0 : Hub.RecentHist t0) {es : List HEv} {h : Hall (W → W)}
    (hrun : (Hall.init t0 absMax).run (execBytes (dummyTarget cfg)) (fun i => (clients i).isSome) p (hubAddr ip port) es = some h)
    (hp : Prompt (execBytes (dummyTarget cfg)) L (Hub.start t0 absMax) h.evs)
    (hto : ∀ i x, clients i = some x → binsOf i es <+: x.s.tr.u.wire.map fun f => wordBytes f.words)
    (hfrom : ∀ i x, clients i = some x → x.s.tr.u.rx.map wordBytes <+: (h.conn i).tm.sent) (r : W)
    (hmine : ∀ i x, clients i = some x → ∀ a ∈ x.accs, OnlySums r a)
    (hother : ∀ q ∈ controlRequests h.evs, clients q.2 = none → ∀ m : W → W, (execBytes (dummyTarget cfg) m (Hub.bodyOf q)).1 r = m r) :
    (Hub.final (execBytes (dummyTarget cfg)) t0.st ((controlRequests h.evs).map Hub.bodyOf) r).toNat =
      ((t0.st r).toNat + (ids.map fun i => match clients i with | some x => (x.accs.map (addend r)).sum | none => 0).sum) % 2 ^ 32 := by
  obtain ⟨E, h1, h2, _, h4⟩ := C80_common_partial clients hok (dummyTarget cfg) hd hmx hb h0 hrun hp hto hfrom
  have hacc : ∀ e ∈ E, ∀ x, clients e.1 = some x → ∃ a ∈ x.accs, e.2 = .acc a := by
    intro e he x hx
    have hm : e.2 ∈ (E.filter fun y => decide (y.1 = e.1)).map (·.2) := List.mem_map.2 ⟨e, List.mem_filter.2 ⟨he, by simp⟩, rfl⟩
    rw [(h1 _ x hx).1] at hm
    obtain ⟨a, ha, e'⟩ := List.mem_map.1 hm
    exact ⟨a, ha, e'.symm⟩
  have hraw : ∀ e ∈ E, clients e.1 = none → ∃ q ∈ controlRequests h.evs, clients q.2 = none ∧ e.2 = .raw (Hub.bodyOf q) := by
    intro e he hx
    have hm : e ∈ E.filter fun e => (clients e.1).isNone := List.mem_filter.2 ⟨he, by simp [hx]⟩
    rw [h2] at hm
    obtain ⟨q, hq, rfl⟩ := List.mem_map.1 hm
    obtain ⟨hq1, hq2⟩ := List.mem_filter.1 hq
    exact ⟨q, hq1, by simpa using hq2, rfl⟩
  rw [← h4, commonRun_sum cfg _ r E t0.st]
  · rw [sum_clients ids hn (deedAddend r) E]
    · congr 3
      apply List.map_congr_left
      intro i hi
      obtain ⟨x, hx⟩ := Option.isSome_iff_exists.1 ((hids i).2 hi)
      rw [(h1 i x hx).1, hx, List.map_map]
      rfl
    · intro e he
      cases hc : clients e.1 with
      | some x => exact .inl ((hids _).1 (by simp [hc]))
      | none =>
        obtain ⟨q, _, _, hq⟩ := hraw e he hc
        rw [hq]
        exact .inr rfl
  · intro e he a ha
    cases hc : clients e.1 with
    | some x =>
      obtain ⟨a', ha', e'⟩ := hacc e he x hc
      rw [ha] at e'
      cases e'
      exact hmine _ x hc a ha'
    | none =>
      obtain ⟨q, _, _, hq⟩ := hraw e he hc
      rw [ha] at hq
      cases hq
  · intro e he b hb'
    cases hc : clients e.1 with
    | some x =>
      obtain ⟨a', _, e'⟩ := hacc e he x hc
      rw [hb'] at e'
      cases e'
    | none =>
      obtain ⟨q, hq1, hq2, hq⟩ := hraw e he hc
      rw [hb'] at hq
      cases hq
      exact hother q hq1 hq2

/-! ### Counting -/

def Deed.isAcc : Deed Bytes → Bool
  | .acc _ => true
  | .raw _ => false

theorem commonRun_count (cfg : W → W) (other : (W → W) → Bytes → W → W) (r : W) : ∀ (E : List (Nat × Deed Bytes)) (m : W → W),
    (∀ e ∈ E, ∀ a, e.2 = .acc a → ∃ b, a = .sum b 1 ∧ accReg a = r) → (∀ e ∈ E, ∀ b, e.2 = .raw b → ∀ m : W → W, other m b r = m r) →
    (commonRun .v2 (dummyTarget cfg) other E m).1.flatMap (·.2) = (List.range (E.filter fun e => Deed.isAcc e.2).length).map fun k => m r + BitVec.ofNat 32 k := by
  intro E
  induction E with
  | nil => intro m _ _; rfl
  | cons e E ih =>
    intro m h1 h2
    obtain ⟨i, d⟩ := e
    rw [commonRun, List.flatMap_cons]
    simp only []
    rw [ih _ (fun e he => h1 e (by simp [he])) (fun e he => h2 e (by simp [he]))]
    cases d with
    | raw b =>
      rw [List.filter_cons_of_neg (by simp [Deed.isAcc])]
      simp only [Deed.exec, List.nil_append]
      rw [h2 (i, .raw b) (by simp) b rfl m]
    | acc a =>
      obtain ⟨b, rfl, hr⟩ := h1 (i, .acc a) (by simp) a rfl
      rw [List.filter_cons_of_pos (by simp [Deed.isAcc]), List.length_cons, List.range_succ_eq_map, List.map_cons, List.map_map]
      have hr' : b &&& 0x00FFFFFF = r := hr
      simp only [Deed.exec, Acc.exec, dummyTarget, hr', if_pos, List.cons_append, List.nil_append]
      refine List.cons_eq_cons.2 ⟨by simp, ?_⟩
      apply List.map_congr_left
      intro k _
      simp only [Function.comp_apply]
      rw [BitVec.add_assoc]
      congr 1
      apply BitVec.eq_of_toNat_eq
      simp [BitVec.toNat_add, BitVec.toNat_ofNat]
      omega

/-- The words of all clients, in whatever order, are all the words. -/
theorem words_perm : ∀ (ids : List Nat), ids.Nodup → ∀ (outs : List (Nat × List W)), (∀ o ∈ outs, o.1 ∈ ids ∨ o.2 = []) →
    (ids.flatMap fun i => wordsOf i outs).Perm (outs.flatMap (·.2)) := by
  have key : ∀ (ids : List Nat) (j : Nat) (ws : List W) (g : Nat → List W), ids.Nodup →
      (ids.flatMap fun i => (if j = i then ws else []) ++ g i).Perm ((if j ∈ ids then ws else []) ++ ids.flatMap g) := by
    intro ids
    induction ids with
    | nil => intro j ws g _; simp
    | cons i ids ih =>
      intro j ws g hn
      rw [List.flatMap_cons, List.flatMap_cons]
      have hi := ih j ws g (List.nodup_cons.1 hn).2
      by_cases h : j = i
      · subst h
        rw [if_neg (List.nodup_cons.1 hn).1, List.nil_append] at hi
        rw [if_pos rfl, if_pos (by simp), List.append_assoc]
        exact (hi.append_left _).append_left _
      · have hm : (if j ∈ i :: ids then ws else []) = if j ∈ ids then ws else [] := by simp [h]
        rw [if_neg h, List.nil_append, hm]
        refine (hi.append_left _).trans ?_
        rw [← List.append_assoc, ← List.append_assoc]
        exact List.perm_append_comm.append_right _
  intro ids hn outs
  induction outs with
  | nil => intro _; simp [wordsOf]
  | cons o outs ih =>
    intro h
    have hs : ∀ i, wordsOf i (o :: outs) = (if o.1 = i then o.2 else []) ++ wordsOf i outs := by
      intro i
      unfold wordsOf
      by_cases hi : o.1 = i
      · rw [List.filter_cons_of_pos (by simpa using hi), if_pos hi]; rfl
      · rw [List.filter_cons_of_neg (by simpa using hi), if_neg hi]; rfl
    simp only [hs]
    refine (key ids o.1 o.2 _ hn).trans ?_
    rw [List.flatMap_cons]
    refine List.Perm.append ?_ (ih fun x hx => h x (by simp [hx]))
    rcases h o (by simp) with ho | ho
    · rw [if_pos ho]
    · rw [ho, ite_self]

theorem commonRun_ids {σ : Type} (v : Ver) (tg : Target σ) (other : σ → Bytes → σ) : ∀ (E : List (Nat × Deed Bytes)) (m : σ), ∀ o ∈ (commonRun v tg other E m).1,
    ∃ e ∈ E, e.1 = o.1 ∧ ((∃ b, e.2 = .raw b) → o.2 = []) := by
  intro E
  induction E with
  | nil => intro m o ho; simp [commonRun] at ho
  | cons e E ih =>
    intro m o ho
    rw [commonRun] at ho
    rcases List.mem_cons.1 ho with rfl | ho
    · refine ⟨e, by simp, rfl, ?_⟩
      rintro ⟨b, hb⟩
      simp only [hb, Deed.exec]
    · obtain ⟨e', he', h⟩ := ih _ o ho
      exact ⟨e', by simp [he'], h⟩

/-- All the values that a user sees. -/
def seen (l : List (Option ValOut)) : List W := l.flatMap fun v => match v with
  | some (.data ws) => ws
  | _ => []

/-- A program that draws numbers: it adds one to a register, again and again, and dispatches when it wants. -/
def Draws (r : W) (ops : List Op) : Prop := ∀ op ∈ ops, op = .dispatch ∨ ∃ a, op = .rmwSum a 1 ∧ a &&& 0x00FFFFFF = r

theorem draws_show (r : W) : ∀ (ops : List Op), Draws r ops → ∀ ws : List W, ws.length = ((ops.flatMap fun op => (opAccs .v2 op).getD [])).length →
    seen ((progShow .v2 ops ws).map (Option.map ValOut.data)) = ws := by
  intro ops
  induction ops with
  | nil => intro _ ws h; cases ws with
    | nil => rfl
    | cons => simp at h
  | cons op ops ih =>
    intro hd ws h
    have hd' : Draws r ops := fun o ho => hd o (by simp [ho])
    rcases hd op (by simp) with rfl | ⟨a, rfl, _⟩
    · simp only [progShow, opAccs, List.map_nil, List.sum_nil, List.take_zero, List.drop_zero, List.map_cons]
      have := ih hd' ws (by simpa [opAccs] using h)
      simpa [seen, opShow] using this
    · cases ws with
      | nil => simp [opAccs] at h
      | cons w ws =>
        have := ih hd' ws (by simpa [opAccs] using h)
        simpa [progShow, opAccs, Acc.gives, seen, opShow] using this

theorem draws_accs (r : W) : ∀ (ops : List Op), Draws r ops → ∀ a ∈ ops.flatMap (fun op => (opAccs .v2 op).getD []), ∃ b, a = .sum b 1 ∧ accReg a = r := by
  intro ops hd a ha
  obtain ⟨op, hop, ha'⟩ := List.mem_flatMap.1 ha
  rcases hd op hop with rfl | ⟨b, rfl, hb⟩
  · simp [opAccs] at ha'
  · simp [opAccs] at ha'
    subst ha'
    exact ⟨b, rfl, hb⟩

/-- Up to 2³² numbers: no two users, and no user twice, see the same. -/
theorem tickets_nodup (x : W) (n : Nat) (h : n ≤ 2 ^ 32) : ((List.range n).map fun k => x + BitVec.ofNat 32 k).Nodup := by
  rw [List.Nodup, List.pairwise_map]
  refine List.Pairwise.imp_of_mem ?_ List.nodup_range
  intro a b ha hb' hab e
  have ha' := List.mem_range.1 ha
  have hb'' := List.mem_range.1 hb'
  have := congrArg BitVec.toNat (BitVec.add_right_inj x |>.1 e)
  simp only [BitVec.toNat_ofNat] at this
  omega

/-- **C80, numbers are drawn once.** On the test target: all clients do nothing but add one to a register and look at what they get; others leave the register alone. Then what the users see, all of them together,
is the value at the beginning and the values that follow it, as many as there were calls, each of them once; with at most 2³² calls no value is seen twice. -/
theorem C80_tickets_partial (clients : Nat → Option Prog) (ids : List Nat) (hn : ids.Nodup) (hids : ∀ i, (clients i).isSome = true ↔ i ∈ ids)
    (hok : ∀ i x, clients i = some x → x.Ok ip port) (cfg : W → W) {t0 : Hub.Tgt (W → W)} {absMax L p : Nat} (hd : 0 < t0.depth) (hmx : 0 < absMax)
    (hb : L + min t0.depth absMax + 2 * t0.depth < 65535) (h0 : Hub.RecentHist t0) {es : List HEv} {h : Hall (W → W)}
    (hrun : (Hall.init t0 absMax).run (execBytes (dummyTarget cfg)) (fun i => (clients i).isSome) p (hubAddr ip port) es = some h)
    (hp : Prompt (execBytes (dummyTarget cfg)) L (Hub.start t0 absMax) h.evs)
    (hto : ∀ i x, clients i = some x → binsOf i es <+: x.s.tr.u.wire.map fun f => wordBytes f.words)
    (hfrom : ∀ i x, clients i = some x → x.s.tr.u.rx.map wordBytes <+: (h.conn i).tm.sent) (r : W)
    (hmine : ∀ i x, clients i = some x → Draws r x.ops)
    (hother : ∀ q ∈ controlRequests h.evs, clients q.2 = none → ∀ m : W → W, (execBytes (dummyTarget cfg) m (Hub.bodyOf q)).1 r = m r) :
    (ids.flatMap fun i => match clients i with | some x => seen x.shown | none => []).Perm
      ((List.range (ids.map fun i => match clients i with | some x => x.accs.length | none => 0).sum).map fun k => t0.st r + BitVec.ofNat 32 k) ∧
    ((ids.map fun i => match clients i with | some x => x.accs.length | none => 0).sum ≤ 2 ^ 32 →
      (ids.flatMap fun i => match clients i with | some x => seen x.shown | none => []).Nodup) := by
  refine (fun hperm => ⟨hperm, fun hle => hperm.nodup_iff.2 (tickets_nodup _ _ hle)⟩) ?_
  obtain ⟨E, h1, h2, _, h4⟩ := C80_common_partial clients hok (dummyTarget cfg) hd hmx hb h0 hrun hp hto hfrom
  have hacc : ∀ e ∈ E, ∀ x, clients e.1 = some x → ∃ a ∈ x.accs, e.2 = .acc a := by
    intro e he x hx
    have hm : e.2 ∈ (E.filter fun y => decide (y.1 = e.1)).map (·.2) := List.mem_map.2 ⟨e, List.mem_filter.2 ⟨he, by simp⟩, rfl⟩
    rw [(h1 _ x hx).1] at hm
    obtain ⟨a, ha, e'⟩ := List.mem_map.1 hm
    exact ⟨a, ha, e'.symm⟩
  have hraw : ∀ e ∈ E, clients e.1 = none → ∃ q ∈ controlRequests h.evs, clients q.2 = none ∧ e.2 = .raw (Hub.bodyOf q) := by
    intro e he hx
    have hm : e ∈ E.filter fun e => (clients e.1).isNone := List.mem_filter.2 ⟨he, by simp [hx]⟩
    rw [h2] at hm
    obtain ⟨q, hq, rfl⟩ := List.mem_map.1 hm
    obtain ⟨hq1, hq2⟩ := List.mem_filter.1 hq
    exact ⟨q, hq1, by simpa using hq2, rfl⟩
  have ha1 : ∀ e ∈ E, ∀ a, e.2 = .acc a → ∃ b, a = .sum b 1 ∧ accReg a = r := by
    intro e he a ha
    cases hc : clients e.1 with
    | some x =>
      obtain ⟨a', ha', e'⟩ := hacc e he x hc
      rw [ha] at e'
      cases e'
      exact draws_accs r x.ops (hmine _ x hc) a ha'
    | none =>
      obtain ⟨q, _, _, hq⟩ := hraw e he hc
      rw [ha] at hq
      cases hq
  have ha2 : ∀ e ∈ E, ∀ b, e.2 = .raw b → ∀ m : W → W, (execBytes (dummyTarget cfg) m b).1 r = m r := by
    intro e he b hb'
    cases hc : clients e.1 with
    | some x =>
      obtain ⟨a', _, e'⟩ := hacc e he x hc
      rw [hb'] at e'
      cases e'
    | none =>
      obtain ⟨q, hq1, hq2, hq⟩ := hraw e he hc
      rw [hb'] at hq
      cases hq
      exact hother q hq1 hq2
  have hcount := commonRun_count cfg (fun m b => (execBytes (dummyTarget cfg) m b).1) r E t0.st ha1 ha2
  have hnum : (E.filter fun e => Deed.isAcc e.2).length = (ids.map fun i => match clients i with | some x => x.accs.length | none => 0).sum := by
    have hlen : ∀ F : List (Nat × Deed Bytes), (F.filter fun e => Deed.isAcc e.2).length = (F.map fun e => if Deed.isAcc e.2 then 1 else 0).sum := by
      intro F
      induction F with
      | nil => rfl
      | cons e F ih =>
        by_cases he : Deed.isAcc e.2 = true
        · rw [List.filter_cons_of_pos (by exact he), List.map_cons, List.sum_cons, if_pos he, List.length_cons, ih]; omega
        · rw [List.filter_cons_of_neg (by exact he), List.map_cons, List.sum_cons, if_neg he, ih]; omega
    rw [hlen, sum_clients ids hn (fun d : Deed Bytes => if Deed.isAcc d then 1 else 0) E]
    · congr 1
      apply List.map_congr_left
      intro i hi
      obtain ⟨x, hx⟩ := Option.isSome_iff_exists.1 ((hids i).2 hi)
      rw [(h1 i x hx).1, hx, List.map_map]
      simp only []
      generalize x.accs = l
      induction l with
      | nil => rfl
      | cons a l ih => simp [Deed.isAcc] at ih ⊢; omega
    · intro e he
      cases hc : clients e.1 with
      | some x => exact .inl ((hids _).1 (by simp [hc]))
      | none =>
        obtain ⟨q, _, _, hq⟩ := hraw e he hc
        rw [hq]
        exact .inr rfl
  rw [← hnum, ← hcount]
  have hw : (ids.flatMap fun i => match clients i with | some x => seen x.shown | none => []) =
      ids.flatMap fun i => wordsOf i (commonRun .v2 (dummyTarget cfg) (fun m b => (execBytes (dummyTarget cfg) m b).1) E t0.st).1 := by
    rw [List.flatMap, List.flatMap]
    congr 1
    apply List.map_congr_left
    intro i hi
    obtain ⟨x, hx⟩ := Option.isSome_iff_exists.1 ((hids i).2 hi)
    rw [hx]
    simp only []
    rw [(h1 i x hx).2]
    have hdr : Draws r (x.ops ++ [.dispatch]) := by
      intro op hop
      rcases List.mem_append.1 hop with h' | h'
      · exact hmine i x hx op h'
      · exact .inl (by simpa using h')
    refine draws_show r _ hdr _ ?_
    have hl : ∀ (F : List (Nat × Deed Bytes)) (m : W → W), (∀ e ∈ F, ∀ a, e.2 = .acc a → ∃ b, a = .sum b 1 ∧ accReg a = r) → (∀ e ∈ F, e.1 = i → Deed.isAcc e.2 = true) →
        (wordsOf i (commonRun .v2 (dummyTarget cfg) (fun m b => (execBytes (dummyTarget cfg) m b).1) F m).1).length =
          ((F.filter fun e => decide (e.1 = i)).map (·.2)).length := by
      intro F
      induction F with
      | nil => intro m _ _; rfl
      | cons e F ih =>
        intro m g1 g2
        have := ih (e.2.exec .v2 (dummyTarget cfg) (fun m b => (execBytes (dummyTarget cfg) m b).1) m).2 (fun y hy => g1 y (by simp [hy])) (fun y hy => g2 y (by simp [hy]))
        rw [commonRun]
        unfold wordsOf at this ⊢
        by_cases he : e.1 = i
        · rw [List.filter_cons_of_pos (by simpa using he), List.filter_cons_of_pos (by simpa using he), List.flatMap_cons, List.length_append, this]
          have hia := g2 e (by simp) he
          cases hd' : e.2 with
          | raw b => rw [hd'] at hia; cases hia
          | acc a =>
            obtain ⟨b, rfl, _⟩ := g1 e (by simp) a hd'
            simp [Deed.exec, Acc.exec, Nat.add_comm]
        · rw [List.filter_cons_of_neg (by simpa using he), List.filter_cons_of_neg (by simpa using he)]
          exact this
    rw [hl E t0.st ha1, (h1 i x hx).1, List.length_map]
    · simp [Prog.accs, opAccs]
    · intro e he hei
      obtain ⟨a, _, ha⟩ := hacc e he x (by rw [hei]; exact hx)
      rw [ha]; rfl
  rw [hw]
  refine words_perm ids hn _ ?_
  intro o ho
  obtain ⟨e, he, e1, e2⟩ := commonRun_ids _ _ _ E t0.st o ho
  cases hc : clients e.1 with
  | some x => exact .inl (e1 ▸ (hids _).1 (by simp [hc]))
  | none =>
    obtain ⟨q, _, _, hq⟩ := hraw e he hc
    exact .inr (e2 ⟨_, hq⟩)

end

/-! ## Non-vacuity -/

section
open Verif.TraMgr

/-- Two clients, and a third that writes to another register between. -/
def twoOps : List Op := [.rmwSum 5 1, .rmwSum 5 1]
def oneOps : List Op := [.rmwSum 5 1]

def chunkOf (ops : List Op) : List Buf := ((runOps hubSmall demoTr (ops ++ [.dispatch]) (St.init [])).map fun p => p.2.hist).getD []

def drawEvs : List HEv := [.chunk 7 (wordBytes (mkFrame (chunkOf twoOps)).words), .chunk 8 (wordBytes (mkFrame (chunkOf oneOps)).words), .request 7,
  .toTarget 0 (List.replicate 48 0), .toHub 0, .response 7, .request 8, .toTarget 1 (List.replicate 48 0), .toHub 1,
  .other (wordBytes [0x200000F0, 0x2000011F, 2, 0x77]) 9, .toTarget 2 (List.replicate 48 0), .toHub 2, .response 8,
  .request 7, .toTarget 3 (List.replicate 48 0), .toHub 3, .response 7]

/-- What the ControlHub sends to the two. -/
def twoBody : List W := [0x14000000, 0x0100000A, 0x51C3, 0x200000F0, 0x20000150, 5, 0x14000000, 0x0100000A, 0x51C3, 0x200000F0, 0x20010150, 7]
def oneBody : List W := [0x14000000, 0x0100000A, 0x51C3, 0x200000F0, 0x20000150, 6]

def twoPlan : List (List TEv × Bool) := [([], true), ([], true), ([.sendDone true, .recvHdr (some 12), .recvBody (some twoBody), .recvEnd], true)]
def onePlan : List (List TEv × Bool) := [([], true), ([], true), ([.sendDone true, .recvHdr (some 6), .recvBody (some oneBody), .recvEnd], true)]

def drawTcp (ops : List Op) (plan : List (List TEv × Bool)) : Option (List Res × St TcpT) :=
  runOps hubSmall (tcpT hubSmall 2 16) (ops ++ [.dispatch]) (St.init (TcpT.init plan))

theorem draw_prog (ops : List Op) (hops : ∀ op ∈ ops, op.ok hubSmall ∧ op.maskOK true) (plan : List (List TEv × Bool)) (rs : List Res) (s : St TcpT)
    (h : drawTcp ops plan = some (rs, s)) (hf : rs.all (fun r => match r with | .ok _ => true | .exc _ => false) = true) :
    Prog.Ok 0x0100000A 0x51C3 ⟨hubSmall, 2, 16, ops, plan, rs, s⟩ where
  par := (⟨by decide, by decide, by decide, by decide⟩ : TPar 2 16)
  wf := hubSmall_ok.1
  cap := hubSmall_ok.2.1
  roomy := hubSmall_ok.2.2
  hub := rfl
  ver := rfl
  max := (by decide : hubSmall.maxSend.toNat < 4 * 2 ^ 16)
  ops := hops
  run := h
  fine := by
    intro e he
    have := List.all_eq_true.1 hf _ he
    cases this

/-- The three see the register at different times; the hypotheses of all theorems of this file are met, and the two users see 5, 7 and 6. -/
example : ∃ (clients : Nat → Option Prog) (h : Hall (W → W)), (∀ i x, clients i = some x → x.Ok 0x0100000A 0x51C3) ∧
    (∀ i, (clients i).isSome = true ↔ i ∈ [7, 8]) ∧
    (Hall.init hubTgt 2).run (execBytes (dummyTarget fun _ => 0)) (fun i => (clients i).isSome) 3 (hubAddr 0x0100000A 0x51C3) drawEvs = some h ∧
    Prompt (execBytes (dummyTarget fun _ => 0)) 100 (Hub.start hubTgt 2) h.evs = true ∧
    (∀ i x, clients i = some x → binsOf i drawEvs <+: x.s.tr.u.wire.map fun f => wordBytes f.words) ∧
    (∀ i x, clients i = some x → x.s.tr.u.rx.map wordBytes <+: (h.conn i).tm.sent) ∧
    (∀ i x, clients i = some x → Draws 5 x.ops) ∧ (∀ i x, clients i = some x → ∀ a ∈ x.accs, OnlySums 5 a) ∧
    (∀ q ∈ controlRequests h.evs, clients q.2 = none → ∀ m : W → W, (execBytes (dummyTarget fun _ => 0) m (Hub.bodyOf q)).1 5 = m 5) ∧
    (clients 7).map (fun x => seen x.shown) = some [5, 7] ∧ (clients 8).map (fun x => seen x.shown) = some [6] := by
  have h1 : (drawTcp twoOps twoPlan).map (fun p => (p.1.all (fun r => match r with | .ok _ => true | .exc _ => false),
      p.2.tr.u.wire.map (fun f => wordBytes f.words), p.2.tr.u.rx, seen (p.1.map (resShow true p.2.tr.u.heap)))) = some (true, binsOf 7 drawEvs, [twoBody], [5, 7]) := by decide +kernel
  have h2 : (drawTcp oneOps onePlan).map (fun p => (p.1.all (fun r => match r with | .ok _ => true | .exc _ => false),
      p.2.tr.u.wire.map (fun f => wordBytes f.words), p.2.tr.u.rx, seen (p.1.map (resShow true p.2.tr.u.heap)))) = some (true, binsOf 8 drawEvs, [oneBody], [6]) := by decide +kernel
  have h3 : ((Hall.init hubTgt 2).run (execBytes (dummyTarget fun _ => 0)) (fun i => i == 7 || i == 8) 3 (hubAddr 0x0100000A 0x51C3) drawEvs).map (fun h =>
      (Prompt (execBytes (dummyTarget fun _ => 0)) 100 (Hub.start hubTgt 2) h.evs, (h.conn 7).tm.sent, (h.conn 8).tm.sent,
        ((controlRequests h.evs).filter fun q => !(q.2 == 7 || q.2 == 8)) == [(wordBytes [0x200000F0, 0x2000011F, 2, 0x77], 9)])) =
      some (true, [wordBytes twoBody], [wordBytes oneBody], true) := by decide +kernel
  obtain ⟨⟨rs, s⟩, hs, e1⟩ := Option.map_eq_some_iff.1 h1
  obtain ⟨⟨rs', s'⟩, hs', e2⟩ := Option.map_eq_some_iff.1 h2
  obtain ⟨h, hh, e3⟩ := Option.map_eq_some_iff.1 h3
  simp only [Prod.mk.injEq] at e1 e2 e3
  obtain ⟨a1, a2, a3, a4⟩ := e1
  obtain ⟨b1, b2, b3, b4⟩ := e2
  obtain ⟨c1, c2, c3, c4⟩ := e3
  let clients : Nat → Option Prog := fun i => if i = 7 then some ⟨hubSmall, 2, 16, twoOps, twoPlan, rs, s⟩ else
    if i = 8 then some ⟨hubSmall, 2, 16, oneOps, onePlan, rs', s'⟩ else none
  have hcase : ∀ i x, clients i = some x → (i = 7 ∧ x = ⟨hubSmall, 2, 16, twoOps, twoPlan, rs, s⟩) ∨ (i = 8 ∧ x = ⟨hubSmall, 2, 16, oneOps, onePlan, rs', s'⟩) := by
    intro i x hx
    by_cases h7 : i = 7
    · simp only [clients, if_pos h7, Option.some.injEq] at hx; exact .inl ⟨h7, hx.symm⟩
    · by_cases h8 : i = 8
      · simp only [clients, if_neg h7, if_pos h8, Option.some.injEq] at hx; exact .inr ⟨h8, hx.symm⟩
      · simp [clients, h7, h8] at hx
  have hmem : (fun i => (clients i).isSome) = fun i => i == 7 || i == 8 := by
    funext i
    by_cases h7 : i = 7
    · subst h7; rfl
    · by_cases h8 : i = 8
      · subst h8; rfl
      · simp [clients, h7, h8]
  refine ⟨clients, h, ?_, ?_, by rw [hmem]; exact hh, c1, ?_, ?_, ?_, ?_, ?_, congrArg some a4, congrArg some b4⟩
  · intro i x hx
    rcases hcase i x hx with ⟨_, rfl⟩ | ⟨_, rfl⟩
    · exact draw_prog _ (by simp [twoOps, Op.ok, Op.maskOK]) _ _ _ hs a1
    · exact draw_prog _ (by simp [oneOps, Op.ok, Op.maskOK]) _ _ _ hs' b1
  · intro i
    rw [show (clients i).isSome = (i == 7 || i == 8) from congrFun hmem i]
    simp
  · intro i x hx
    rcases hcase i x hx with ⟨rfl, rfl⟩ | ⟨rfl, rfl⟩
    · simp only [a2]; exact List.prefix_refl _
    · simp only [b2]; exact List.prefix_refl _
  · intro i x hx
    rcases hcase i x hx with ⟨rfl, rfl⟩ | ⟨rfl, rfl⟩
    · simp only [a3, c2]; exact List.prefix_refl _
    · simp only [b3, c3]; exact List.prefix_refl _
  · intro i x hx
    rcases hcase i x hx with ⟨rfl, rfl⟩ | ⟨rfl, rfl⟩
    · intro op hop
      simp [twoOps] at hop
      exact .inr ⟨5, hop, by decide⟩
    · intro op hop
      simp [oneOps] at hop
      exact .inr ⟨5, hop, by decide⟩
  · intro i x hx a ha
    rcases hcase i x hx with ⟨rfl, rfl⟩ | ⟨rfl, rfl⟩
    · simp [Prog.accs, twoOps, opAccs] at ha
      exact fun _ => .inr (.inr ⟨5, 1, ha⟩)
    · simp [Prog.accs, oneOps, opAccs] at ha
      exact fun _ => .inr (.inr ⟨5, 1, ha⟩)
  · intro q hq hc m
    have hm : q ∈ (controlRequests h.evs).filter fun q => !(q.2 == 7 || q.2 == 8) := by
      refine List.mem_filter.2 ⟨hq, ?_⟩
      have := congrFun hmem q.2
      simp only [hc] at this
      simp [← this]
    rw [eq_of_beq c4] at hm
    rw [List.mem_singleton.1 hm]
    rfl

end

end Verif
