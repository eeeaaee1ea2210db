import Verif.Lemmas.DummyRef
import Verif.Lemmas.InspTarget
/-!
# C71: the dummy hardware is an IPbus target

See `/verif/properties.jsonl` and `DESIGN.md`. What a target should do is `Verif/Spec/Dummy.lean`.
-/

set_option autoImplicit false
set_option linter.unusedSimpArgs false

namespace Verif.Dummy
open Verif.Insp
open Verif.Hub (Bytes Tgt headerId)
open Spec

/-- What the specification sees of the target of `Verif/Model/Hub.lean`. -/
def abs (t : Tgt (W → W)) : TState := ⟨t.expected, t.st, t.hist⟩

theorem toList_inj {α : Type} {a b : Option α} (h : a.toList = b.toList) : a = b := by
  cases a <;> cases b <;> simp_all

theorem answers_of {big : Bool} {cfg : List W} {t : Tgt (W → W)} (hd : t.depth = 5) {pkt junk : Bytes} (hp : FromHost big pkt) (hj : junk.length = 48) :
    ∃ a, (t.recv (execIn big (tgOf cfg)) pkt junk).2 = a.toList ∧ Response big (tgOf cfg) (abs t) pkt (abs (t.recv (execIn big (tgOf cfg)) pkt junk).1) a := by
  cases hp with
  | control ws pid txns h1 h2 h3 =>
    cases ws with
    | nil => cases h1
    | cons p w =>
      have hp' := h1
      simp only [parsePacket] at hp'
      split at hp'
      · rename_i hh
        obtain ⟨hn, hlt⟩ := ctl_toNat hh
        simp only [Option.map_eq_some_iff, Prod.mk.injEq] at hp'
        obtain ⟨l, hl, hpid, rfl⟩ := hp'
        rw [hpid] at hn hlt
        have hsplit : toBytes big (p :: w) = toBytes big [p] ++ toBytes big w := by rw [← toBytes_append]; rfl
        have hid : headerId (octets big (p :: w)) = some pid := by
          rw [octets_toBytes, hsplit]
          exact ctl_headerId big hn hlt _
        unfold Tgt.recv
        rw [hid]
        simp only
        by_cases hr : pid ≠ 0 ∧ pid ≠ t.expected
        · rw [if_pos hr]
          exact ⟨none, rfl, .ignore h1 hr.1 hr.2⟩
        · rw [if_neg hr]
          have hws : w ≠ [] := by rintro rfl; exact h2 (parseTxns_nil hl)
          obtain ⟨body, b1, b2⟩ := analyzeLoop_ok .v2 (tgOf cfg) _ w.length w l t.st [] hl hws (Nat.le_refl _)
          have hex : execIn big (tgOf cfg) t.st ((octets big (p :: w)).drop 4) = ((execTxns .v2 (tgOf cfg) (l.map Prod.snd) t.st).2, toBytes big body) := by
            rw [octets_toBytes, hsplit, List.drop_left' (toBytes_one_length big p)]
            simp only [execIn, unBytes_toBytes, b1, List.nil_append]
          have htake : (octets big (p :: w)).take 4 = toBytes big [p] := by
            rw [octets_toBytes, hsplit, List.take_left' (toBytes_one_length big p)]
          have hb : toBytes big [p] ++ toBytes big body = octets big ((p :: w).take 1 ++ body) := by
            rw [octets_toBytes, ← toBytes_append]; rfl
          rw [hex, htake, hb]
          refine ⟨some _, rfl, ?_⟩
          have key := Response.execute (big := big) (tg := tgOf cfg) (s := abs t) h1 h2 (by
            by_cases h0 : pid = 0
            · exact Or.inl h0
            · right
              by_cases he : pid = t.expected
              · exact he
              · exact absurd ⟨h0, he⟩ hr) b2
          have hs : abs { t with
              last := if pid = 0 then t.last else pid
              hist := ((pid, octets big ((p :: w).take 1 ++ body)) :: t.hist).take t.depth
              st := (execTxns .v2 (tgOf cfg) (l.map Prod.snd) t.st).2
              log := t.log ++ [octets big (p :: w)] } = ⟨if pid = 0 then (abs t).next else nextId pid,
                (execTxns .v2 (tgOf cfg) (l.map Prod.snd) (abs t).mem).2, ((pid, octets big ((p :: w).take 1 ++ body)) :: (abs t).kept).take 5⟩ := by
            unfold abs
            simp only [TState.mk.injEq, hd, and_true]
            by_cases h0 : pid = 0
            · rw [if_pos h0]
              simp only [Tgt.expected, h0, if_true]
            · rw [if_neg h0]
              simp only [Tgt.expected, h0, if_false, nextId]
              by_cases h5 : pid = 65535
              · rw [if_pos h5, if_pos (by omega)]
              · rw [if_neg h5, if_neg (by omega)]; omega
          rw [hs]
          exact key
      · cases hp'
  | status rest =>
    have : t.recv (execIn big (tgOf cfg)) (0x20 :: 0 :: 0 :: 0xf1 :: rest) junk = (t, [t.status junk]) := by simp [Tgt.recv, headerId]
    rw [this]
    refine ⟨some (t.status junk), rfl, ?_⟩
    have e : t.status junk = [0x20, 0, 0, 0xf1] ++ Spec.Hub.be 4 400000 ++ Spec.Hub.be 4 5 ++ [0x20, (abs t).next / 256, (abs t).next % 256, 0xf0] ++ junk := by
      have k1 : Spec.Hub.be 4 400000 = [0, 6, 0x1a, 0x80] := by decide +kernel
      have k2 : Spec.Hub.be 4 5 = [5 / 16777216, 5 / 65536 % 256, 5 / 256 % 256, 5 % 256] := by decide +kernel
      rw [k1, k2, Tgt.status, hd]
      rfl
    rw [e]
    exact .status hj
  | resend b c rest h1 h2 h3 =>
    have : t.recv (execIn big (tgOf cfg)) (0x20 :: b :: c :: 0xf2 :: rest) junk =
        (t, ((t.hist.find? fun e => decide (e.1 = b * 256 + c)).map (·.2)).toList) := by
      simp only [Tgt.recv, headerId]
      simp
      cases t.hist.find? (fun e => decide (e.1 = b * 256 + c)) <;> rfl
    rw [this]
    exact ⟨_, rfl, .again⟩

theorem session_of {big : Bool} {cfg : List W} (hcfg : cfg.length = 10) (pkts : List Bytes) (hp : ∀ p ∈ pkts, FromHost big p) (d : DH) (t : Tgt (W → W))
    (h : Rel big cfg d t) :
    ∃ d' as t', d.udps .v2 pkts = some (d', as) ∧ Session big (tgOf cfg) (abs t) pkts (abs t') as ∧ Rel big cfg d' t' := by
  induction pkts generalizing d t with
  | nil => exact ⟨d, [], t, rfl, .nil, h⟩
  | cons p ps ih =>
    have hpp := hp p (by simp)
    obtain ⟨d1, a, u1, u2, u3⟩ := sim h hcfg hpp
    obtain ⟨a', v1, v2⟩ := answers_of (cfg := cfg) h.depth hpp (junk_length h)
    rw [u2] at v1
    rw [← toList_inj v1] at v2
    obtain ⟨d', as, t', w1, w2, w3⟩ := ih (fun q hq => hp q (by simp [hq])) d1 _ u3
    refine ⟨d', a :: as, t', ?_, .cons v2 w2, w3⟩
    rw [DH.udps, u1]
    simp only [w1, Option.map_some]

/-- The target that the specification starts with. -/
def TState.start : TState := ⟨1, fun _ => 0, []⟩

/-- **C71, IPbus 2.0 over UDP.** Whatever well-behaved datagrams arrive, in whatever order (with or without `mBigEndianHack`, in the corresponding byte order): the dummy
hardware survives, answers and keeps its memory as a target should. Well-behaved: `FromHost`; others: `C71_violated_…`. -/
theorem C71_udp_partial (pid : BitVec 16) (big : Bool) (pkts : List Bytes) (hp : ∀ p ∈ pkts, FromHost big p) :
    ∃ d as s, (DH.init pid big).udps .v2 pkts = some (d, as) ∧ Session big (tgOf (DH.init pid big).cfg) TState.start pkts s as ∧ d.mem = s.mem := by
  obtain ⟨d, as, t, h1, h2, h3⟩ := session_of (by simp [DH.init]) pkts hp _ _ (Rel.init pid big)
  exact ⟨d, as, abs t, h1, h2, h3.mem⟩

/-- Two control packets, the second of them twice, a request to send the reply to the first again, a status request. -/
example : ∀ p ∈ [octets true [0x200001F0, 0x2000011F, 4, 7], octets true [0x200002F0, 0x2001010F, 4, 0x2000016F, 9], octets true [0x200002F0, 0x2001010F, 4, 0x2000016F, 9],
    [0x20, 0, 1, 0xf2], 0x20 :: 0 :: 0 :: 0xf1 :: List.replicate 60 0], FromHost true p := by
  intro p hp
  have h1 : FromHost true (octets true [0x200001F0, 0x2000011F, 4, 7]) :=
    .control _ 1 [(0, .write true 4 [7])] (by decide +kernel) (by simp) (by simp)
  have h2 : FromHost true (octets true [0x200002F0, 0x2001010F, 4, 0x2000016F, 9]) :=
    .control _ 2 [(1, .read true 4 1), (0, .cfgRead 9 1)] (by decide +kernel) (by simp) (by
      intro x hx a n hn
      simp only [List.mem_cons, List.not_mem_nil, or_false] at hx
      rcases hx with rfl | rfl
      · cases hn
      · cases hn; decide)
  simp only [List.mem_cons, List.not_mem_nil, or_false] at hp
  rcases hp with rfl | rfl | rfl | rfl | rfl
  · exact h1
  · exact h2
  · exact h2
  · exact .resend 0 1 [] (by decide) (by decide) (by decide)
  · exact .status _

/-! ## IPbus 1.3 -/

theorem no_config_v1 (fuel : Nat) (ws : List W) (txns : List (Nat × Txn)) (h : parseTxns .v1 fuel ws = some txns) :
    ∀ x ∈ txns, x.2.ty ≠ .configRead := by
  induction fuel generalizing ws txns with
  | zero =>
    cases ws with
    | nil => simp only [parseTxns, Option.some.injEq] at h; subst h; simp
    | cons w ws => cases h
  | succ fuel ih =>
    cases ws with
    | nil => simp only [parseTxns, Option.some.injEq] at h; subst h; simp
    | cons w ws =>
      rw [parseTxns] at h
      cases h1 : parseTxn .v1 (w :: ws) with
      | none => rw [h1] at h; cases h
      | some x =>
        obtain ⟨id, txn, rest⟩ := x
        rw [h1] at h
        simp only [Option.map_eq_some_iff] at h
        obtain ⟨l, hl, rfl⟩ := h
        obtain ⟨d, d1, _, _, d4⟩ := parseTxn_hdr h1
        have hs := (parse_supported d1).1
        have ht := (parse_ty d4).1
        intro x hx
        rcases List.mem_cons.1 hx with rfl | hx
        · simp only [ht]
          intro hc
          rw [hc] at hs
          simp [supported] at hs
        · exact ih _ _ hl x hx

/-- An IPbus 1.3 packet. -/
theorem process_v1 {d : DH} (hd : d.dead = false) {ws : List W} {pid : Nat} {txns : List (Nat × Txn)} (hp : parsePacket .v1 ws = some (pid, txns)) (hne : txns ≠ []) :
    ∃ body d', DH.process .v1 d ws = .ok d' ∧ ReplyBody .v1 txns (execTxns .v1 d.tg (txns.map Prod.snd) d.mem).1 body ∧ d'.reply = d.reply ++ body ∧
      d'.mem = (execTxns .v1 d.tg (txns.map Prod.snd) d.mem).2 ∧ d'.cfg = d.cfg ∧ d'.dead = false ∧ d'.hack = d.hack := by
  obtain ⟨pre, cs, c1, c2, c3, c4, c5⟩ := hostAnalyze_ok .v1 ws pid txns hp hne
  simp only [parsePacket, Option.map_eq_some_iff, Prod.mk.injEq] at hp
  obtain ⟨l, hl, _, rfl⟩ := hp
  have hws : ws ≠ [] := by rintro rfl; exact hne (parseTxns_nil hl)
  obtain ⟨body, b1, b2⟩ := analyzeLoop_ok .v1 d.tg _ ws.length ws l d.mem [] hl hws (Nat.le_refl _)
  have b3 := analyzeLoop_acc .v1 d.tg ws.length ws d.mem d.reply []
  rw [b1] at b3
  simp only [List.nil_append, List.append_nil] at b3
  obtain ⟨d', l1, l2, l3, l4⟩ := loop_sim .v1 ws.length (2 * ws.length + 2) ws d _ _ (by omega) b3
  have han : hostAnalyze .v1 (cb .v1) true ws d = .ret true d' [] := by
    rw [hostAnalyze, hostRun, l1]
  have hdead : d'.dead = false := by
    have hpre : pre = [] := c1
    subst hpre
    have hf := c5 DH (cb .v1) true d (by intro q hq; cases hq)
    rw [han] at hf
    simp only [Out.ret.injEq, and_true, true_and, List.map_nil, List.nil_append] at hf
    rw [hf, fold_dead, hd, Bool.false_or, List.any_eq_false]
    intro c hc
    have hm : c.asTxn ∈ l.map some := by rw [← c2]; exact List.mem_map_of_mem hc
    rw [List.mem_map] at hm
    obtain ⟨x, hx, hx'⟩ := hm
    have := no_config_v1 _ _ _ hl x hx
    unfold oob
    split
    · rename_i w hd' a
      simp only [HCall.asTxn, Option.some.injEq] at hx'
      rw [hx'] at this
      exact absurd rfl this
    · simp
  refine ⟨body, { d' with hist := if d'.pktType = 0#32 ∧ d'.reply ≠ [] then push d'.hist (d'.cnt, d'.reply) else d'.hist }, ?_, b2, l3, l2, l4.cfg, hdead, l4.hack⟩
  unfold DH.process
  rw [show swapsIn .v1 d.hack ws = false from by cases ws <;> rfl]
  simp only [Bool.false_eq_true, if_false, han, hdead, if_true, false_and, reduceCtorEq]

/-- What an IPbus 1.3 target does with a sequence of packets: it executes and answers each. -/
inductive Session13 (tg : Target (W → W)) : (W → W) → List (List W) → (W → W) → List (List W) → Prop
  | nil {m : W → W} : Session13 tg m [] m []
  | cons {m m' : W → W} {ws body : List W} {wss rs : List (List W)} {pid : Nat} {txns : List (Nat × Txn)} : parsePacket .v1 ws = some (pid, txns) →
      ReplyBody .v1 txns (execTxns .v1 tg (txns.map Prod.snd) m).1 body →
      Session13 tg (execTxns .v1 tg (txns.map Prod.snd) m).2 wss m' rs → Session13 tg m (ws :: wss) m' (body :: rs)

/-- **C71, IPbus 1.3 over UDP.** Every sequence of well-formed packets is executed and answered. -/
theorem C71_v13_partial (wss : List (List W)) (hp : ∀ ws ∈ wss, ∃ pid txns, parsePacket .v1 ws = some (pid, txns) ∧ txns ≠ []) (d : DH) (hd : d.dead = false) :
    ∃ d' rs, d.udps .v1 (wss.map (octets false)) = some (d', rs.map fun r => some (octets false r)) ∧ Session13 d.tg d.mem wss d'.mem rs := by
  induction wss generalizing d with
  | nil => exact ⟨d, [], rfl, .nil⟩
  | cons ws wss ih =>
    obtain ⟨pid, txns, h1, h2⟩ := hp ws (by simp)
    obtain ⟨body, d1, p1, p2, p3, p4, p5, p6, _⟩ := process_v1 (d := { d with reply := [] }) hd h1 h2
    obtain ⟨d', rs, i1, i2⟩ := ih (fun w hw => hp w (by simp [hw])) d1 p6
    have htg : d1.tg = d.tg := by simp only [DH.tg, p5]
    have hb : ofLE (octets false ws) = ws := by rw [octets_toBytes, ofLE_toBytes]; rfl
    have hu : d.udp .v1 (octets false ws) = .ok d1 (some (octets false body)) := by
      rw [udp_ok (d' := d1) (by rw [hb]; exact p1)]
      have hr : d1.reply = body := p3
      have hne : body ≠ [] := by
        intro hc
        rw [hc] at p2
        cases p2
        exact h2 rfl
      rw [hr, if_neg hne, octets_toBytes]
      rfl
    refine ⟨d', body :: rs, ?_, ?_⟩
    · rw [List.map_cons, DH.udps, hu]
      simp only [i1, Option.map_some, List.map_cons]
    · rw [htg, p4] at i2
      exact .cons h1 p2 i2

/-! ## TCP -/

/-- **C71, TCP.** A well-formed packet (in IPbus 2.0 with packet ID 0, as uHAL sends over TCP) is answered by the byte count of the reply and the reply. -/
theorem C71_tcp_partial (v : Ver) {d : DH} (hd : d.dead = false) (hk : d.hack = false) (hcfg : d.cfg.length = 10) {ws : List W} {txns : List (Nat × Txn)}
    (hp : parsePacket v ws = some (0, txns)) (hne : txns ≠ []) (hcf : ∀ x ∈ txns, ∀ a n, x.2 = .cfgRead a n → a.toNat + n ≤ 10) :
    ∃ d' body, d.tcp v (octets false ws) = .ok d' (some (Spec.Hub.be 4 (4 * (pktEcho v ws ++ body).length) ++ octets false (pktEcho v ws ++ body))) ∧
      ReplyBody v txns (execTxns v d.tg (txns.map Prod.snd) d.mem).1 body ∧ d'.mem = (execTxns v d.tg (txns.map Prod.snd) d.mem).2 ∧
      d'.dead = false ∧ d'.hack = false ∧ d'.cfg = d.cfg := by
  have fin : ∀ (d1 : DH) (r : List W), DH.process v { d with reply := [0] } (ofLE (octets false ws)) = .ok d1 → d1.reply = 0#32 :: r → r ≠ [] →
      ∃ d', d.tcp v (octets false ws) = .ok d' (some (Spec.Hub.be 4 (4 * r.length) ++ octets false r)) ∧ d'.mem = d1.mem ∧ d'.dead = d1.dead ∧ d'.hack = d1.hack ∧
        d'.cfg = d1.cfg := by
    intro d1 r h1 h2 h3
    unfold DH.tcp
    rw [h1]
    simp only [h2]
    cases r with
    | nil => exact absurd rfl h3
    | cons w r =>
      refine ⟨{ d1 with reply := htonl (BitVec.ofNat 32 (4 * (r.length + 1))) :: w :: r }, ?_, rfl, rfl, rfl, rfl⟩
      simp only [List.length_cons]
      rw [wordBytes_cons, leBytes_htonl, BitVec.toNat_ofNat, be4_mod, octets_toBytes]
      rfl
  cases v with
  | v1 =>
    obtain ⟨body, d1, p1, p2, p3, p4, p5, p6, p7⟩ := process_v1 (d := { d with reply := [0] }) hd hp hne
    have hb : ofLE (octets false ws) = ws := by rw [octets_toBytes, ofLE_toBytes]; rfl
    obtain ⟨d', q1, q2, q3, q4, q5⟩ := fin d1 body (by rw [hb]; exact p1) p3 (by
      intro hc; rw [hc] at p2; cases p2; exact hne rfl)
    exact ⟨d', body, q1, p2, q2.trans p4, q3.trans p6, q4.trans (p7.trans hk), q5.trans p5⟩
  | v2 =>
    cases ws with
    | nil => cases hp
    | cons p t =>
      have hp' := hp
      simp only [parsePacket] at hp'
      split at hp'
      · simp only [Option.map_eq_some_iff, Prod.mk.injEq] at hp'
        obtain ⟨l, hl, h0, rfl⟩ := hp'
        obtain ⟨body, m', d1, a1, a2, a3, a4, a5, a6, a7, _⟩ := process_accepted (d := { d with reply := [0] }) (big := false) hk hd hcfg hp hne hcf
          (by rw [pkt_cnt p h0]; simp)
        have hws : t ≠ [] := by rintro rfl; exact hne (parseTxns_nil hl)
        obtain ⟨body', b1, b2⟩ := analyzeLoop_ok .v2 d.tg _ t.length t l d.mem [] hl hws (Nat.le_refl _)
        have a2' : analyzeLoop .v2 d.tg t.length t d.mem [] = .done body m' := a2
        rw [b1] at a2'
        simp only [List.nil_append, AOut.done.injEq] at a2'
        obtain ⟨rfl, rfl⟩ := a2'
        obtain ⟨d', q1, q2, q3, q4, q5⟩ := fin d1 (p :: body') (by rw [octets_toBytes]; exact a1) (by rw [a3]; rfl) (by simp)
        exact ⟨d', body', q1, b2, q2.trans a4, q3.trans a7, q4.trans (a6.trans hk), q5.trans a5⟩
      · cases hp'

/-! ## Where it is not -/

/-- An unknown packet type, as the first thing that the target receives: the answer depends on an uninitialised member. -/
theorem C71_violated_first (pid : BitVec 16) : (DH.init pid false).udp .v2 (octets false [0x200000F3]) = .ub ∧
    (DH.init pid false).udp .v1 (octets false [0]) = .ub := by
  constructor <;> rfl

/-- The answers to a sequence of datagrams, as words. -/
def DH.answers (v : Ver) (d : DH) (pkts : List (List W)) : Option (List (Option (List W))) :=
  (d.udps v (pkts.map (octets false))).map fun x => x.2.map fun a => a.map ofLE

/-- The same later on: the answer is the header of the last transaction of an earlier packet, with an error code. -/
theorem C71_violated_stale : (DH.init 0 false).answers .v2 [[0x200000F0, 0x2ABC010F, 0], [0x200000F3]] =
    some [some [0x200000F0, 0x2ABC0100, 0], some [0x2ABC0001]] := by
  decide +kernel

/-- The program ends by an exception which nothing catches. -/
def Sent.died : Sent → Bool
  | .threw => true
  | _ => false

/-- A request to send the reply with the ID 0 again, which no packet had: the answer are 400000 bytes of zeros (more than a datagram can carry). -/
theorem C71_violated_zero (pid : BitVec 16) : ∃ d, (DH.init pid false).udp .v2 [0x20, 0, 0, 0xf2] = .ok d (some (List.replicate 400000 0)) := by
  have h : DH.process .v2 { DH.init pid false with reply := [] } (ofLE [0x20, 0, 0, 0xf2]) = .ok { DH.init pid false with
      pkt := 0x200000f2
      reply := List.replicate bufferSize 0
      traffic := push (DH.init pid false).traffic 4 } := by
    unfold DH.process
    have e : (if swapsIn .v2 (DH.init pid false).hack (ofLE [0x20, 0, 0, 0xf2]) then (ofLE [0x20, 0, 0, 0xf2]).map htonl else ofLE [0x20, 0, 0, 0xf2]) =
        [0x200000f2#32] := by
      show (if swapsIn .v2 false (ofLE [0x20, 0, 0, 0xf2]) then _ else _) = _
      decide +kernel
    simp only
    rw [e, analyze_resend _ _ _ (by decide)]
    have hf : ((DH.init pid false).hist.reverse.find? fun x => decide (x.1 = (0x200000f2#32 >>> 8) &&& 0xFFFF#32)) = some (0, List.replicate bufferSize 0) := rfl
    simp only [cb, DH.pktType, DH.cnt, hf]
    simp [DH.init]
  have hr : (List.replicate bufferSize (0 : W)) ≠ [] := by
    intro hc
    have := congrArg List.length hc
    rw [List.length_replicate] at this
    cases this
  have hz : ∀ n, wordBytes (List.replicate n 0) = List.replicate (4 * n) 0 := by
    intro n
    induction n with
    | zero => rfl
    | succ n ih => rw [List.replicate_succ, wordBytes_cons, ih]; rfl
  have hu := udp_ok h
  rw [if_neg hr, hz] at hu
  exact ⟨_, hu⟩

/-- A configuration space read behind the ten words ends the program. -/
theorem C71_violated_config : ((DH.init 0 false).udp .v2 (octets false [0x200000F0, 0x2000016F, 10])).died = true := by
  decide +kernel

/-- Answers (as bytes) to messages of a TCP connection. -/
def DH.tcps (v : Ver) (d : DH) : List Bytes → List (Option Bytes)
  | [] => []
  | p :: ps => match d.tcp v p with
    | .ok d r => r :: d.tcps v ps
    | _ => []

/-- Over TCP, packets that are ignored do take up space for replies: after five of them, the reply to the packet before cannot be had again. After four it can. -/
theorem C71_violated_tcp :
    (DH.init 0 false).tcps .v2 ([octets false [0x200001F0, 0x2000010F, 0]] ++ List.replicate 4 (octets false [0x200009F0, 0x2000010F, 0]) ++ [[0x20, 0, 1, 0xf2]]) =
      [some ([0, 0, 0, 12] ++ octets false [0x200001F0, 0x20000100, 0]), none, none, none, none,
        some ([0, 0, 0, 12] ++ octets false [0x200001F0, 0x20000100, 0])] ∧
    (DH.init 0 false).tcps .v2 ([octets false [0x200001F0, 0x2000010F, 0]] ++ List.replicate 5 (octets false [0x200009F0, 0x2000010F, 0]) ++ [[0x20, 0, 1, 0xf2]]) =
      [some ([0, 0, 0, 12] ++ octets false [0x200001F0, 0x20000100, 0]), none, none, none, none, none, none] := by
  decide +kernel

end Verif.Dummy
