import Verif.Lemmas.Dummy
import Verif.Spec.Dummy
/-! The dummy hardware and the target of `Verif/Model/Hub.lean`. -/

set_option autoImplicit false
set_option linter.unusedSimpArgs false

namespace Verif.Dummy
open Verif.Insp
open Verif.Hub (Bytes Tgt headerId)
open Spec

theorem htonl_htonl (w : W) : htonl (htonl w) = w := by
  apply BitVec.eq_of_toNat_eq
  rw [htonl_toNat, htonl_toNat]
  obtain ⟨a, b, c, d, ha, hb, hc, hd, hx, e0, e1, e2, e3⟩ := digits _ w.isLt
  obtain ⟨u0, u1, u2, u3⟩ := undigits a b c d hb hc hd
  simp only [e0, e1, e2, e3, u0, u1, u2, u3]
  omega

theorem map_htonl (ws : List W) : (ws.map htonl).map htonl = ws := by
  rw [List.map_map]
  conv => rhs; rw [← List.map_id ws]
  apply List.map_congr_left
  intro w _
  exact htonl_htonl w

theorem octets_toBytes (big : Bool) (ws : List W) : octets big ws = toBytes big ws := by
  have key : ∀ w : W, (if big then Hub.be 4 w.toNat else (Hub.be 4 w.toNat).reverse) = leBytes (if big then htonl w else w) := by
    intro w
    cases big with
    | true => exact (leBytes_htonl w).symm
    | false =>
      have hw := w.isLt
      simp only [Bool.false_eq_true, if_false]
      rw [TraMgr.be4]
      simp only [TraMgr.be32, leBytes, List.reverse_cons, List.reverse_nil, List.nil_append, List.cons_append, List.cons.injEq, and_true, true_and]
      omega
  induction ws with
  | nil => cases big <;> rfl
  | cons w ws ih =>
    have e1 : octets big (w :: ws) = (if big then Hub.be 4 w.toNat else (Hub.be 4 w.toNat).reverse) ++ octets big ws := rfl
    have e2 : toBytes big (w :: ws) = leBytes (if big then htonl w else w) ++ toBytes big ws := by cases big <;> rfl
    rw [e1, e2, key, ih]

theorem unBytes_toBytes (big : Bool) (ws : List W) : unBytes big (toBytes big ws) = ws := by
  cases big with
  | true => simp only [unBytes, toBytes, if_true, ofLE_wordBytes, map_htonl]
  | false => simp only [unBytes, toBytes, Bool.false_eq_true, if_false, ofLE_wordBytes]

theorem toBytes_append (big : Bool) (a b : List W) : toBytes big (a ++ b) = toBytes big a ++ toBytes big b := by
  cases big <;> simp [toBytes, wordBytes_append]

theorem toBytes_one_length (big : Bool) (w : W) : (toBytes big [w]).length = 4 := by
  cases big <;> rfl

/-! ## Packet headers -/

/-- The header of a control packet. -/
theorem ctl_toNat {p : W} (h : field p 28 4 = 2 ∧ field p 24 4 = 0 ∧ field p 4 4 = 15 ∧ field p 0 4 = 0) :
    p.toNat = 0x200000f0 + 256 * field p 8 16 ∧ field p 8 16 < 65536 := by
  obtain ⟨h1, h2, h3, h4⟩ := h
  have hp := p.isLt
  simp only [field] at *
  omega

theorem ctl_bytes {p : W} {c : Nat} (h : p.toNat = 0x200000f0 + 256 * c) (hc : c < 65536) :
    leBytes p = [0xf0, c % 256, c / 256, 0x20] ∧ leBytes (htonl p) = [0x20, c / 256, c % 256, 0xf0] := by
  constructor
  · simp only [leBytes, h, List.cons.injEq, and_true]
    omega
  · rw [leBytes_htonl, TraMgr.be4]
    simp only [TraMgr.be32, h, List.cons.injEq, and_true]
    omega

/-- The ID that the target reads from the bytes of the header. -/
theorem ctl_headerId (big : Bool) {p : W} {c : Nat} (h : p.toNat = 0x200000f0 + 256 * c) (hc : c < 65536) (rest : Bytes) :
    headerId (toBytes big [p] ++ rest) = some c := by
  obtain ⟨b1, b2⟩ := ctl_bytes h hc
  cases big with
  | true =>
    have : toBytes true [p] = [0x20, c / 256, c % 256, 0xf0] := by
      simp only [toBytes, if_true, List.map_cons, List.map_nil, wordBytes, List.flatMap_cons, List.flatMap_nil, List.append_nil]
      exact b2
    rw [this]
    simp [headerId]
    omega
  | false =>
    have : toBytes false [p] = [0xf0, c % 256, c / 256, 0x20] := by
      simp only [toBytes, Bool.false_eq_true, if_false, wordBytes, List.flatMap_cons, List.flatMap_nil, List.append_nil]
      exact b1
    rw [this]
    simp [headerId]
    omega

theorem cnt_toNat (p : W) : ((p >>> 8) &&& 0xFFFF#32).toNat = field p 8 16 := by
  have := toNat_field p 8 16 (by decide)
  exact this

/-! ## The relation -/

/-- The dummy hardware `d` is in the state `t` of the target. The newest `k` of the replies that it keeps are those of `t`; the others are left from the
constructor (packet ID 0). -/
structure Rel (big : Bool) (cfg : List W) (d : DH) (t : Tgt (W → W)) : Prop where
  hack : d.hack = big
  dead : d.dead = false
  cfg : d.cfg = cfg
  mem : d.mem = t.st
  last : d.last.toNat = 0x200000f0 + 256 * t.last
  lastLt : t.last < 65536
  depth : t.depth = 5
  histLen : d.hist.length = 5
  hist : ∃ k, t.hist = (d.hist.reverse.take k).map (fun x => (x.1.toNat, toBytes big x.2)) ∧ (∀ x ∈ d.hist.reverse.take k, x.2 ≠ []) ∧
    ∀ x ∈ d.hist.reverse.drop k, x.1 = 0#32
  rcvd : d.rcvd.length = 4
  sent : d.sent.length = 4

/-- A target that has just been switched on. -/
def fresh : Tgt (W → W) := ⟨0, [], 5, fun _ => 0, []⟩

theorem Rel.init (pid : BitVec 16) (big : Bool) : Rel big (DH.init pid big).cfg (DH.init pid big) fresh where
  hack := rfl
  dead := rfl
  cfg := rfl
  mem := rfl
  last := rfl
  lastLt := by simp [fresh]
  depth := rfl
  histLen := by simp [DH.init]
  hist := ⟨0, rfl, by simp, by
    intro x hx
    simp only [DH.init, List.reverse_replicate, List.drop_zero, List.mem_replicate] at hx
    rw [hx.2]; rfl⟩
  rcvd := by simp [DH.init]
  sent := by simp [DH.init]

theorem expected_toNat {d : DH} {t : Tgt (W → W)} (h : d.last.toNat = 0x200000f0 + 256 * t.last) (hl : t.last < 65536) :
    d.expected.toNat = t.expected ∧ t.expected < 65536 := by
  have e1 : ((d.last >>> 8) &&& 0xFFFF#32).toNat = t.last := by
    rw [cnt_toNat, field, h]; omega
  have e2 : (((d.last >>> 8 &&& 0xFFFF#32) + 1#32) &&& 0xFFFF#32).toNat = (t.last + 1) % 65536 := by
    have := toNat_and_mask ((d.last >>> 8 &&& 0xFFFF#32) + 1#32) 16 (by decide)
    have this' : (((d.last >>> 8 &&& 0xFFFF#32) + 1#32) &&& 0xFFFF#32).toNat = ((d.last >>> 8 &&& 0xFFFF#32) + 1#32).toNat % 65536 := this
    rw [this', BitVec.toNat_add, e1]
    simp only [BitVec.toNat_ofNat]
    omega
  unfold DH.expected Tgt.expected
  simp only
  by_cases hz : (t.last + 1) % 65536 = 0
  · rw [if_pos hz, if_pos (BitVec.eq_of_toNat_eq (by rw [e2, hz]; rfl))]
    exact ⟨rfl, by omega⟩
  · rw [if_neg hz, if_neg (by intro hc; rw [hc] at e2; exact hz e2.symm), e2]
    exact ⟨rfl, by omega⟩

/-- Another reply is kept. -/
theorem keep {big : Bool} {H : List (W × List W)} {th : List (Nat × Bytes)} (z : W × List W) (hx : z.2 ≠ []) (hl : H.length = 5)
    (h : ∃ k, th = (H.reverse.take k).map (fun x => (x.1.toNat, toBytes big x.2)) ∧ (∀ x ∈ H.reverse.take k, x.2 ≠ []) ∧
      ∀ x ∈ H.reverse.drop k, x.1 = 0#32) :
    ∃ k, ((z.1.toNat, toBytes big z.2) :: th).take 5 = ((push H z).reverse.take k).map (fun x => (x.1.toNat, toBytes big x.2)) ∧
      (∀ x ∈ (push H z).reverse.take k, x.2 ≠ []) ∧ ∀ x ∈ (push H z).reverse.drop k, x.1 = 0#32 := by
  obtain ⟨k, h1, h2, h3⟩ := h
  have e : (push H z).reverse = (z :: H.reverse).take 5 := by
    cases H with
    | nil => simp at hl
    | cons a H =>
      simp only [List.length_cons] at hl
      simp only [push, List.cons_append, List.drop_one, List.tail_cons, List.reverse_append, List.reverse_cons, List.reverse_nil, List.nil_append]
      rw [← List.cons_append, List.take_left' (by simp; omega)]
  rw [e]
  refine ⟨k + 1, ?_, ?_, ?_⟩
  · rw [h1, List.take_take, Nat.min_comm, ← List.take_take, List.take_succ_cons, ← List.map_take]
    rfl
  · intro y hy
    rw [List.take_take, Nat.min_comm, ← List.take_take, List.take_succ_cons] at hy
    rcases List.mem_cons.1 (List.mem_of_mem_take hy) with rfl | hy
    · exact hx
    · exact h2 y hy
  · intro y hy
    rw [List.drop_take, List.drop_succ_cons] at hy
    exact h3 y (List.mem_of_mem_take hy)

/-! ## Control packets -/

/-- The target with the configuration space `cfg`. -/
abbrev tgOf (cfg : List W) : Spec.Target (W → W) := dummyTarget fun a => cfg.getD a.toNat 0

theorem ofLE_toBytes (big : Bool) (ws : List W) : ofLE (toBytes big ws) = if big then ws.map htonl else ws := by
  cases big <;> simp [toBytes, ofLE_wordBytes]

/-- A control packet is analysed in the byte order of the host. -/
theorem swap_control (big : Bool) {p : W} {c : Nat} (h : p.toNat = 0x200000f0 + 256 * c) (hc : c < 65536) (t : List W) :
    (if swapsIn .v2 big (ofLE (toBytes big (p :: t))) then (ofLE (toBytes big (p :: t))).map htonl else ofLE (toBytes big (p :: t))) = p :: t := by
  rw [ofLE_toBytes]
  cases big with
  | true =>
    simp only [if_true]
    rw [if_pos (by simp [swapsIn]), map_htonl]
  | false =>
    simp only [Bool.false_eq_true, if_false]
    have h1 : p ≠ 0xF1000020#32 := by
      intro e; rw [e] at h; simp at h; omega
    have h2 : p &&& 0xFF0000FF#32 ≠ 0xF2000020#32 := by
      intro e
      have := congrArg BitVec.toNat e
      rw [mask_toNat] at this
      simp at this
      omega
    rw [if_neg (by simp [swapsIn, h1, h2])]

/-- A packet with an unexpected ID. -/
theorem process_rejected {d : DH} {big : Bool} {p : W} {c : Nat} (hk : d.hack = big) (hd : d.dead = false) (h : p.toNat = 0x200000f0 + 256 * c) (hc : c < 65536)
    (t : List W) (h0 : (p >>> 8) &&& 0xFFFF#32 ≠ 0#32) (he : (p >>> 8) &&& 0xFFFF#32 ≠ d.expected) (hr : d.reply = []) :
    DH.process .v2 d (ofLE (toBytes big (p :: t))) = .ok { d with pkt := p, traffic := push d.traffic 5 } := by
  have hty : p &&& 0xF#32 = 0#32 := pkt_type p (by simp only [field]; omega)
  unfold DH.process
  rw [hk, swap_control big h hc]
  have : hostAnalyze .v2 (cb .v2) true (p :: t) d = .ret true { d with pkt := p, traffic := push d.traffic 5 } t := by
    rw [hostAnalyze, hostRun]
    simp only [hty, if_true]
    have : cb .v2 d (.control p) = ({ d with pkt := p, traffic := push d.traffic 5 }, false) := by
      simp only [cb, DH.cnt]
      exact if_pos ⟨h0, he⟩
    rw [this]
    simp
  rw [this]
  simp [hd, hr, hk]

/-- A packet that is executed. -/
theorem process_accepted {d : DH} {big : Bool} {p : W} {t : List W} {txns : List (Nat × Txn)} {pid : Nat} (hk : d.hack = big) (hd : d.dead = false)
    (hcfg : d.cfg.length = 10) (hp : parsePacket .v2 (p :: t) = some (pid, txns)) (hne : txns ≠ [])
    (hcf : ∀ x ∈ txns, ∀ a n, x.2 = .cfgRead a n → a.toNat + n ≤ 10)
    (h0 : ¬ ((p >>> 8) &&& 0xFFFF#32 ≠ 0#32 ∧ (p >>> 8) &&& 0xFFFF#32 ≠ d.expected)) :
    ∃ body m' d', DH.process .v2 d (ofLE (toBytes big (p :: t))) = .ok d' ∧ analyzeLoop .v2 d.tg t.length t d.mem [] = .done body m' ∧
      d'.reply = (if big then (d.reply ++ p :: body).map htonl else d.reply ++ p :: body) ∧ d'.mem = m' ∧ d'.cfg = d.cfg ∧ d'.hack = d.hack ∧
      d'.dead = false ∧ d'.hist = push d.hist ((p >>> 8) &&& 0xFFFF#32, d.reply ++ p :: body) ∧
      d'.last = (if (p >>> 8) &&& 0xFFFF#32 ≠ 0#32 then p else d.last) ∧ d'.rcvd.length = d.rcvd.length ∧ d'.sent.length = d.sent.length := by
  obtain ⟨pre, cs, c1, c2, c3, c4, c5⟩ := hostAnalyze_ok .v2 (p :: t) pid txns hp hne
  simp only [parsePacket] at hp
  split at hp
  · rename_i hh
    simp only [Option.map_eq_some_iff, Prod.mk.injEq] at hp
    obtain ⟨l, hl, hpid, rfl⟩ := hp
    obtain ⟨hn, hlt⟩ := ctl_toNat hh
    have hws : t ≠ [] := by rintro rfl; exact hne (parseTxns_nil hl)
    obtain ⟨body, b1, _⟩ := analyzeLoop_ok .v2 d.tg _ t.length t l d.mem [] hl hws (Nat.le_refl _)
    have b3 := analyzeLoop_acc .v2 d.tg t.length t d.mem (d.reply ++ [p]) []
    rw [b1] at b3
    simp only [List.nil_append, List.append_nil] at b1 b3
    have hty : p &&& 0xF#32 = 0#32 := pkt_type p hh.2.2.2
    have hcb : cb .v2 d (.control p) = ({ d with
        pkt := p
        last := if (p >>> 8) &&& 0xFFFF#32 ≠ 0#32 then p else d.last
        reply := d.reply ++ [p]
        traffic := push d.traffic 2 }, true) := by
      simp only [cb, DH.cnt]
      refine (if_neg h0).trans ?_
      by_cases hz : (p >>> 8) &&& 0xFFFF#32 = 0#32 <;> simp [hz]
    obtain ⟨d', l1, l2, l3, l4⟩ := loop_sim .v2 t.length (2 * (p :: t).length + 2) t
      { d with pkt := p, last := if (p >>> 8) &&& 0xFFFF#32 ≠ 0#32 then p else d.last, reply := d.reply ++ [p], traffic := push d.traffic 2 }
      _ _ (by simp; omega) b3
    have han : hostAnalyze .v2 (cb .v2) true (p :: t) d = .ret true d' [] := by
      rw [hostAnalyze, hostRun]
      simp only [hty, if_true, hcb]
      rw [if_neg (by simp), l1]
    have hdead : d'.dead = false := by
      have hf := c5 DH (cb .v2) true d (by
        intro q hq
        obtain ⟨p', hp', -, -⟩ := c1
        rw [hp'] at hq c3
        simp only [List.cons.injEq, and_true] at hq
        simp only [List.cons_append, List.nil_append, List.cons.injEq] at c3
        rw [← hq, c3.1, hcb])
      rw [han] at hf
      simp only [Out.ret.injEq, and_true, true_and] at hf
      rw [hf, fold_dead, hd, hcfg, Bool.false_or, List.any_append, Bool.or_eq_false_iff]
      constructor
      · rw [List.any_eq_false]
        intro c hc
        rw [List.mem_map] at hc
        obtain ⟨q, -, rfl⟩ := hc
        simp [oob]
      · rw [List.any_eq_false]
        intro c hc
        have hm : c.asTxn ∈ l.map some := by rw [← c2]; exact List.mem_map_of_mem hc
        rw [List.mem_map] at hm
        obtain ⟨x, hx, hx'⟩ := hm
        rw [not_oob c x.1 x.2 hx'.symm (hcf x hx)]
        simp
    have hpk : d'.pkt = p := l4.pkt
    have hhk : d'.hack = big := l4.hack.trans hk
    refine ⟨body, _, { d' with
        hist := push d.hist ((p >>> 8) &&& 0xFFFF#32, d.reply ++ p :: body)
        reply := if big then (d.reply ++ p :: body).map htonl else d.reply ++ p :: body }, ?_, b1, rfl, l2, l4.cfg, l4.hack, hdead, rfl, l4.last, l4.rcvd, l4.sent⟩
    unfold DH.process
    rw [hk, swap_control big hn hlt, han]
    simp only [hdead, Bool.false_eq_true, if_false, if_true, DH.pktType, DH.cnt, hpk, hty, hhk, l3, l4.hist, List.append_assoc, List.cons_append, List.nil_append]
    cases big <;> simp
  · cases hp

/-! ## One datagram -/

/-- The dummy hardware does what the target does. -/
def Simulates (big : Bool) (cfg : List W) (d : DH) (t : Tgt (W → W)) (pkt : Bytes) : Prop :=
  ∃ d' a, d.udp .v2 pkt = .ok d' a ∧ (t.recv (execIn big (tgOf cfg)) pkt d.junk).2 = a.toList ∧
    Rel big cfg d' (t.recv (execIn big (tgOf cfg)) pkt d.junk).1

theorem udp_ok {v : Ver} {d d' : DH} {pkt : Bytes} (h : DH.process v { d with reply := [] } (ofLE pkt) = .ok d') :
    d.udp v pkt = .ok d' (if d'.reply = [] then none else some (wordBytes d'.reply)) := by
  unfold DH.udp
  rw [h]

theorem sim_control {big : Bool} {cfg : List W} {d : DH} {t : Tgt (W → W)} (h : Rel big cfg d t) (hcfg : cfg.length = 10) {ws : List W} {pid : Nat}
    {txns : List (Nat × Txn)} (hp : parsePacket .v2 ws = some (pid, txns)) (hne : txns ≠ [])
    (hcf : ∀ x ∈ txns, ∀ a n, x.2 = .cfgRead a n → a.toNat + n ≤ 10) : Simulates big cfg d t (octets big ws) := by
  rw [octets_toBytes]
  cases ws with
  | nil => cases hp
  | cons p w =>
    have hp' := hp
    simp only [parsePacket] at hp'
    split at hp'
    · rename_i hh
      obtain ⟨hn, hlt⟩ := ctl_toNat hh
      have hc := cnt_toNat p
      obtain ⟨hx, hxl⟩ := expected_toNat h.last h.lastLt
      have hid : headerId (toBytes big (p :: w)) = some (field p 8 16) := by
        have : toBytes big (p :: w) = toBytes big [p] ++ toBytes big w := by rw [← toBytes_append]; rfl
        rw [this]
        exact ctl_headerId big hn hlt _
      have hz : (p >>> 8) &&& 0xFFFF#32 ≠ 0#32 ↔ field p 8 16 ≠ 0 := by
        rw [← hc]
        apply not_congr
        exact ⟨fun e => by rw [e]; rfl, fun e => BitVec.eq_of_toNat_eq e⟩
      have hy : (p >>> 8) &&& 0xFFFF#32 ≠ d.expected ↔ field p 8 16 ≠ t.expected := by
        rw [← hc, ← hx]
        apply not_congr
        exact ⟨fun e => by rw [e], fun e => BitVec.eq_of_toNat_eq e⟩
      unfold Simulates DH.udp Tgt.recv
      rw [hid]
      simp only
      by_cases hr : field p 8 16 ≠ 0 ∧ field p 8 16 ≠ t.expected
      · rw [if_pos hr]
        rw [process_rejected (d := { d with reply := [] }) h.hack h.dead hn hlt w (hz.2 hr.1) (hy.2 hr.2) rfl]
        refine ⟨_, none, rfl, rfl, ?_⟩
        exact ⟨h.hack, h.dead, h.cfg, h.mem, h.last, h.lastLt, h.depth, h.histLen, h.hist, h.rcvd, h.sent⟩
      · rw [if_neg hr]
        obtain ⟨body, m', d', a1, a2, a3, a4, a5, a6, a7, a8, a9, a10, a11⟩ :=
          process_accepted (d := { d with reply := [] }) (big := big) h.hack h.dead (by rw [← hcfg, ← h.cfg]) hp hne hcf
            (by rw [hz]; intro hq; exact hr ⟨hq.1, hy.1 hq.2⟩)
        have hdrop : (toBytes big (p :: w)).drop 4 = toBytes big w := by
          have : toBytes big (p :: w) = toBytes big [p] ++ toBytes big w := by rw [← toBytes_append]; rfl
          rw [this, List.drop_left' (toBytes_one_length big p)]
        have htake : (toBytes big (p :: w)).take 4 = toBytes big [p] := by
          have : toBytes big (p :: w) = toBytes big [p] ++ toBytes big w := by rw [← toBytes_append]; rfl
          rw [this, List.take_left' (toBytes_one_length big p)]
        have hex : execIn big (tgOf cfg) t.st (toBytes big w) = (m', toBytes big body) := by
          have htg : ({ d with reply := [] } : DH).tg = tgOf cfg := by simp only [DH.tg, h.cfg]
          rw [htg] at a2
          have hm : ({ d with reply := [] } : DH).mem = t.st := h.mem
          rw [hm] at a2
          simp only [execIn, unBytes_toBytes, a2]
        have hb : toBytes big [p] ++ toBytes big body = toBytes big (p :: body) := by rw [← toBytes_append]; rfl
        simp only [List.nil_append] at a3 a8
        have hrep : wordBytes d'.reply = toBytes big (p :: body) := by rw [a3]; rfl
        rw [a1, hdrop, htake, hex]
        refine ⟨d', some (toBytes big (p :: body)), ?_, ?_, ?_⟩
        · simp only
          rw [if_neg (by rw [a3]; cases big <;> simp), hrep]
        · simp only [hb, Option.toList]
        · refine ⟨a6.trans h.hack, a7, a5.trans h.cfg, a4, ?_, ?_, h.depth, ?_, ?_, a10.trans h.rcvd, a11.trans h.sent⟩
          · rw [a9]
            simp only
            by_cases h0 : field p 8 16 = 0
            · rw [if_neg (by rw [hz]; simp [h0]), if_pos h0]; exact h.last
            · rw [if_pos (hz.2 h0), if_neg h0]; exact hn
          · simp only
            split
            · exact h.lastLt
            · exact hlt
          · rw [a8, push_length]; exact h.histLen
          · rw [a8]
            simp only [hb, h.depth]
            have := keep (big := big) ((p >>> 8) &&& 0xFFFF#32, p :: body) (by simp) h.histLen h.hist
            rw [hc] at this
            exact this
    · cases hp'

theorem length_four {l : List W} (h : l.length = 4) : ∃ a b c d, l = [a, b, c, d] := by
  rcases l with _ | ⟨a, _ | ⟨b, _ | ⟨c, _ | ⟨d, _ | ⟨e, l⟩⟩⟩⟩⟩ <;> simp at h
  exact ⟨a, b, c, d, rfl⟩

theorem junk_length {big : Bool} {cfg : List W} {d : DH} {t : Tgt (W → W)} (h : Rel big cfg d t) : d.junk.length = 48 := by
  simp only [DH.junk, wordBytes_length, List.length_map, List.length_append, DH.trafficWords, List.length_range, h.rcvd, h.sent]

theorem next_bytes {d : DH} {t : Tgt (W → W)} (h : d.last.toNat = 0x200000f0 + 256 * t.last) (hl : t.last < 65536) :
    leBytes (htonl d.nextHeader) = [0x20, t.expected / 256, t.expected % 256, 0xf0] := by
  obtain ⟨hx, hxl⟩ := expected_toNat h hl
  apply (ctl_bytes _ hxl).2
  unfold DH.nextHeader
  rw [BitVec.toNat_or, mask_toNat, mid_toNat _ (by omega), hx, h]
  have e1 : (0x200000f0 + 256 * t.last) / 16777216 * 16777216 + (0x200000f0 + 256 * t.last) % 256 = 2 ^ 29 * 1 + 0xf0 := by omega
  have e2 : 256 * t.expected + 0xf0 < 2 ^ 29 := by omega
  rw [e1, Nat.two_pow_add_eq_or_of_lt (by omega), Nat.or_assoc, Nat.or_comm 0xf0, show 256 * t.expected = 2 ^ 8 * t.expected from rfl,
    ← Nat.two_pow_add_eq_or_of_lt (a := t.expected) (by omega), ← Nat.two_pow_add_eq_or_of_lt (by omega)]
  omega

theorem wordBytes_map_cons (w : W) (ws : List W) : wordBytes ((w :: ws).map htonl) = leBytes (htonl w) ++ wordBytes (ws.map htonl) := rfl

theorem sim_status {big : Bool} {cfg : List W} {d : DH} {t : Tgt (W → W)} (h : Rel big cfg d t) (rest : Bytes) :
    Simulates big cfg d t (0x20 :: 0 :: 0 :: 0xf1 :: rest) := by
  have e : ofLE (0x20 :: 0 :: 0 :: 0xf1 :: rest) = 0xF1000020#32 :: ofLE rest := by rw [ofLE]
  have es : (if swapsIn .v2 d.hack (0xF1000020#32 :: ofLE rest) then (0xF1000020#32 :: ofLE rest).map htonl else 0xF1000020#32 :: ofLE rest) =
      0x200000F1#32 :: (ofLE rest).map htonl := by
    rw [if_pos (by simp [swapsIn])]
    rfl
  have hp : DH.process .v2 { d with reply := [] } (ofLE (0x20 :: 0 :: 0 :: 0xf1 :: rest)) = .ok { d with
      pkt := 0x200000F1#32
      reply := ([0x200000F1#32, BitVec.ofNat 32 (bufferSize * 4), 5, d.nextHeader] ++ d.trafficWords ++ d.rcvd ++ d.sent).map htonl
      traffic := push d.traffic 3 } := by
    unfold DH.process
    rw [e]
    simp only
    rw [es, hostAnalyze, hostRun]
    simp only [show (0x200000F1#32 &&& 0xF#32 = 0#32) = False from by decide, show (0x200000F1#32 &&& 0xF#32 = 1#32) = True from by decide, if_false, if_true, cb]
    simp only [h.dead, Bool.false_eq_true, if_false, if_true, DH.pktType]
    simp only [show (0x200000F1#32 &&& 0xF#32 = 0#32) = False from by decide, show (0x200000F1#32 &&& 0xF#32 = 1#32) = True from by decide, false_and, if_false,
      or_true, and_self, if_true, List.nil_append]
    rfl
  have hrecv : t.recv (execIn big (tgOf cfg)) (0x20 :: 0 :: 0 :: 0xf1 :: rest) d.junk = (t, [t.status d.junk]) := by
    simp [Tgt.recv, headerId]
  unfold Simulates
  rw [hrecv]
  refine ⟨_, _, udp_ok hp, ?_, ?_⟩
  · simp only
    rw [if_neg (by simp)]
    simp only [Option.toList, List.cons.injEq, and_true]
    symm
    have k1 : leBytes (htonl (BitVec.ofNat 32 (bufferSize * 4))) = [0, 6, 0x1a, 0x80] := by decide +kernel
    have k2 : leBytes (htonl 0x200000F1#32) = [0x20, 0, 0, 0xf1] := by decide +kernel
    have k3 : leBytes (htonl 5) = [5 / 16777216, 5 / 65536 % 256, 5 / 256 % 256, 5 % 256] := by decide +kernel
    simp only [k1, k2, k3, List.cons_append, List.nil_append, List.append_assoc, wordBytes_map_cons, next_bytes h.last h.lastLt]
    unfold Tgt.status DH.junk
    rw [h.depth]
    simp only [List.cons_append, List.nil_append, List.append_assoc]
  · exact ⟨h.hack, h.dead, h.cfg, h.mem, h.last, h.lastLt, h.depth, h.histLen, h.hist, h.rcvd, h.sent⟩

theorem analyze_resend {σ : Type} (f : σ → HCall → σ × Bool) (s : σ) {p : W} (t : List W) (h : p &&& 0xF#32 = 2#32) :
    hostAnalyze .v2 f true (p :: t) s = .ret true (f s (.resend p)).1 [] := by
  unfold hostAnalyze
  rw [hostRun]
  simp only [h, show (2#32 = 0#32) = False from by decide, show (2#32 = 1#32) = False from by decide, if_false, if_true]

theorem sim_resend {big : Bool} {cfg : List W} {d : DH} {t : Tgt (W → W)} (h : Rel big cfg d t) (b c : Nat) (rest : Bytes) (hb : b < 256) (hc : c < 256)
    (h0 : 0 < b * 256 + c) : Simulates big cfg d t (0x20 :: b :: c :: 0xf2 :: rest) := by
  have hw : (BitVec.ofNat 32 (0x20 + 256 * b + 65536 * c + 16777216 * 0xf2)).toNat = 0x20 + 256 * b + 65536 * c + 16777216 * 0xf2 := by
    rw [BitVec.toNat_ofNat]; omega
  have e : ofLE (0x20 :: b :: c :: 0xf2 :: rest) = BitVec.ofNat 32 (0x20 + 256 * b + 65536 * c + 16777216 * 0xf2) :: ofLE rest := by rw [ofLE]
  generalize BitVec.ofNat 32 (0x20 + 256 * b + 65536 * c + 16777216 * 0xf2) = w at hw e
  have hm : w &&& 0xFF0000FF#32 = 0xF2000020#32 := by
    apply BitVec.eq_of_toNat_eq
    rw [mask_toNat, hw]
    simp
    omega
  have es : (if swapsIn .v2 d.hack (w :: ofLE rest) then (w :: ofLE rest).map htonl else w :: ofLE rest) = htonl w :: (ofLE rest).map htonl := by
    rw [if_pos (by simp [swapsIn, hm])]
    rfl
  have hq : (htonl w).toNat = 0x200000f2 + 256 * (b * 256 + c) := by
    have q0 : w.toNat % 256 = 0x20 := by omega
    have q1 : w.toNat / 256 % 256 = b := by omega
    have q2 : w.toNat / 65536 % 256 = c := by omega
    have q3 : w.toNat / 16777216 = 0xf2 := by omega
    rw [htonl_toNat, q0, q1, q2, q3]
    omega
  generalize htonl w = p at es hq
  have hty : p &&& 0xF#32 = 2#32 := by
    apply BitVec.eq_of_toNat_eq
    have := toNat_and_mask p 4 (by decide)
    have this' : (p &&& 0xF#32).toNat = p.toNat % 16 := this
    rw [this', hq]
    simp
    omega
  have hcn : ((p >>> 8) &&& 0xFFFF#32).toNat = b * 256 + c := by
    rw [cnt_toNat, field, hq]; omega
  have hp : DH.process .v2 { d with reply := [] } (ofLE (0x20 :: b :: c :: 0xf2 :: rest)) = .ok { d with
      pkt := p
      reply := (fun r => if big then List.map htonl r else r)
        (match d.hist.reverse.find? fun e => decide (e.1 = (p >>> 8) &&& 0xFFFF#32) with | some e => e.2 | none => [])
      traffic := push d.traffic 4 } := by
    unfold DH.process
    rw [e]
    simp only
    rw [es, analyze_resend _ _ _ hty]
    simp only [cb, h.dead, h.hack, Bool.false_eq_true, if_false, if_true, DH.pktType, hty, show (2#32 = 0#32) = False from by decide,
      show (2#32 = 1#32) = False from by decide, false_and, or_false, true_and]
    rfl
  have hrecv : t.recv (execIn big (tgOf cfg)) (0x20 :: b :: c :: 0xf2 :: rest) d.junk =
      (t, ((t.hist.find? fun e => decide (e.1 = b * 256 + c)).map (·.2)).toList) := by
    simp only [Tgt.recv, headerId]
    simp
    cases t.hist.find? (fun e => decide (e.1 = b * 256 + c)) <;> rfl
  have hfind : (t.hist.find? fun e => decide (e.1 = b * 256 + c)) =
      (d.hist.reverse.find? fun e => decide (e.1 = (p >>> 8) &&& 0xFFFF#32)).map (fun x => (x.1.toNat, toBytes big x.2)) ∧
      ∀ x, (d.hist.reverse.find? fun e => decide (e.1 = (p >>> 8) &&& 0xFFFF#32)) = some x → x.2 ≠ [] := by
    obtain ⟨k, k1, k2, k3⟩ := h.hist
    have hsplit : (d.hist.reverse.find? fun e => decide (e.1 = (p >>> 8) &&& 0xFFFF#32)) =
        ((d.hist.reverse.take k).find? fun e => decide (e.1 = (p >>> 8) &&& 0xFFFF#32)) := by
      conv => lhs; rw [← List.take_append_drop k d.hist.reverse]
      rw [List.find?_append]
      have : ((d.hist.reverse.drop k).find? fun e => decide (e.1 = (p >>> 8) &&& 0xFFFF#32)) = none := by
        rw [List.find?_eq_none]
        intro x hx hx'
        rw [k3 x hx] at hx'
        have := congrArg BitVec.toNat (of_decide_eq_true hx')
        rw [hcn] at this
        simp at this
        omega
      rw [this, Option.or_none]
    rw [hsplit, k1, List.find?_map]
    constructor
    · congr 1
      apply congrArg (fun f => List.find? f _)
      funext x
      simp only [Function.comp_apply]
      rw [← hcn]
      apply decide_eq_decide.2
      exact ⟨fun e => BitVec.eq_of_toNat_eq e, fun e => by rw [e]⟩
    · intro x hx
      exact k2 x (List.mem_of_find?_eq_some hx)
  unfold Simulates
  rw [hrecv, hfind.1]
  refine ⟨_, _, udp_ok hp, ?_, ?_⟩
  · simp only
    have hne := hfind.2
    cases hf : d.hist.reverse.find? fun e => decide (e.1 = (p >>> 8) &&& 0xFFFF#32) with
    | none => cases big <;> simp
    | some x =>
      have := hne x hf
      simp only [Option.map_some]
      rw [if_neg (by cases big <;> simp [this])]
      rfl
  · exact ⟨h.hack, h.dead, h.cfg, h.mem, h.last, h.lastLt, h.depth, h.histLen, h.hist, h.rcvd, h.sent⟩

theorem sim {big : Bool} {cfg : List W} {d : DH} {t : Tgt (W → W)} (h : Rel big cfg d t) (hcfg : cfg.length = 10) {pkt : Bytes} (hp : FromHost big pkt) :
    Simulates big cfg d t pkt := by
  cases hp with
  | control ws pid txns h1 h2 h3 => exact sim_control h hcfg h1 h2 h3
  | status rest => exact sim_status h rest
  | resend b c rest h1 h2 h3 => exact sim_resend h b c rest h1 h2 h3

end Verif.Dummy
