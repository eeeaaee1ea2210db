import Verif.Model.PcieDummy
import Verif.Lemmas.DummyRef
import Verif.Lemmas.PagedDev
/-!
# Lemmas about the PCIe test target

The target of `Verif/Model/PcieDummy.lean` with its clients does what the device of `Verif/Model/Paged.lean` does that answers as in `Verif/Model/Target.lean`.
-/

set_option autoImplicit false
set_option linter.unusedSimpArgs false
set_option linter.unusedSectionVars false

namespace Verif.PcieDummy
open Verif.Insp
open Verif.Dummy
open Spec

/-! ## A request -/

/-- A well-formed packet with ID 0: it is executed, or a configuration space read ends the program. -/
theorem process_request {d : DH} {q : List W} {txns : List (Nat × Txn)} (hk : d.hack = false)
    (hp : parsePacket .v2 q = some (0, txns)) (hne : txns ≠ []) :
    DH.process .v2 { d with reply := [] } q = .threw ∨
    ∃ d', DH.process .v2 { d with reply := [] } q = .ok d' ∧ dummyReply .v2 d.tg ⟨d.mem, d.last⟩ q = (some d'.reply, ⟨d'.mem, d'.last⟩) ∧
      d'.cfg = d.cfg ∧ d'.hack = false ∧ d'.dead = false := by
  cases q with
  | nil => cases hp
  | cons p t =>
  obtain ⟨pre, cs, c1, c2, c3, c4, c5⟩ := hostAnalyze_ok .v2 (p :: t) 0 txns hp hne
  obtain ⟨body0, m0, e1, e2, _⟩ := dummyReply_ok .v2 d.tg ⟨d.mem, d.last⟩ (p :: t) txns hp hne
  simp only [parsePacket] at hp
  split at hp
  · rename_i hh
    simp only [Option.map_eq_some_iff, Prod.mk.injEq] at hp
    obtain ⟨l, hl, hpid, rfl⟩ := hp
    obtain ⟨hn, hlt⟩ := ctl_toNat hh
    have hws : t ≠ [] := by rintro rfl; exact hne (parseTxns_nil hl)
    have hz : (p >>> 8) &&& 0xFFFF#32 = 0#32 := by
      apply BitVec.eq_of_toNat_eq
      rw [cnt_toNat, hpid]; rfl
    obtain ⟨body, b1, _⟩ := analyzeLoop_ok .v2 d.tg _ t.length t l d.mem [] hl hws (Nat.le_refl _)
    have b3 := analyzeLoop_acc .v2 d.tg t.length t d.mem [p] []
    rw [b1] at b3
    simp only [List.nil_append, List.append_nil] at b1 b3
    have hty : p &&& 0xF#32 = 0#32 := pkt_type p hh.2.2.2
    have hcb : cb .v2 { d with reply := [] } (.control p) = ({ d with
        pkt := p
        reply := [p]
        traffic := push d.traffic 2 }, true) := by
      simp only [cb, DH.cnt, hz]
      simp
    obtain ⟨d', l1, l2, l3, l4⟩ := loop_sim .v2 t.length (2 * (p :: t).length + 2) t
      { d with pkt := p, reply := [p], traffic := push d.traffic 2 }
      _ _ (by simp; omega) b3
    have han : hostAnalyze .v2 (cb .v2) true (p :: t) { d with reply := [] } = .ret true d' [] := by
      rw [hostAnalyze, hostRun]
      simp only [hty, if_true, hcb]
      rw [if_neg (by simp), l1]
    have hsw := swap_control false hn hlt t
    rw [ofLE_toBytes] at hsw
    simp only [Bool.false_eq_true, if_false] at hsw
    have hpk : d'.pkt = p := l4.pkt
    have hhk : d'.hack = false := l4.hack.trans hk
    have hst : ∀ x : Dummy.Res, x = DH.process .v2 { d with reply := [] } (p :: t) → x = if d'.dead then .threw else .ok { d' with hist := push d'.hist (d'.cnt, d'.reply) } := by
      rintro x rfl
      unfold DH.process
      have hsw' : (if swapsIn .v2 ({ d with reply := [] } : DH).hack (p :: t) = true then (p :: t).map htonl else p :: t) = p :: t := by
        show (if swapsIn .v2 d.hack (p :: t) = true then _ else _) = _
        rw [hk]; exact hsw
      rw [hsw', han]
      have hr : d'.reply ≠ [] := by rw [l3]; simp
      cases hdd : d'.dead with
      | true => simp [hdd]
      | false => simp [hdd, hr, hhk, DH.pktType, hpk, hty]
    cases hdd : d'.dead with
    | true => left; rw [hst _ rfl, hdd]; rfl
    | false =>
      right
      refine ⟨{ d' with hist := push d'.hist (d'.cnt, d'.reply) }, by rw [hst _ rfl, hdd]; rfl, ?_, l4.cfg, hhk, hdd⟩
      simp only
      rw [l2, l3, l4.last]
      simp only [dummyReply]
      rw [if_neg (by rw [hty]; simp), hz]
      simp only [ne_eq, not_true_eq_false, false_and, if_false]
      have b4 := analyzeLoop_acc .v2 d.tg t.length t d.mem [p] []
      rw [b1] at b4
      simp only [List.append_nil] at b4
      rw [b4]
  · cases hp

/-- If no configuration space read does. -/
theorem process_alive {d : DH} {q : List W} {txns : List (Nat × Txn)} (hk : d.hack = false) (hd : d.dead = false) (hcfg : d.cfg.length = 10)
    (hp : parsePacket .v2 q = some (0, txns)) (hne : txns ≠ []) (hcf : ∀ x ∈ txns, ∀ a n, x.2 = .cfgRead a n → a.toNat + n ≤ 10) :
    DH.process .v2 { d with reply := [] } q ≠ .threw := by
  cases q with
  | nil => cases hp
  | cons p t =>
    have hp' := hp
    simp only [parsePacket] at hp'
    split at hp'
    · simp only [Option.map_eq_some_iff, Prod.mk.injEq] at hp'
      obtain ⟨l, hl, hpid, -⟩ := hp'
      have hz : (p >>> 8) &&& 0xFFFF#32 = 0#32 := by
        apply BitVec.eq_of_toNat_eq
        rw [cnt_toNat, hpid]; rfl
      obtain ⟨_, _, d', h1, _⟩ := process_accepted (d := { d with reply := [] }) (big := false) hk hd hcfg hp hne hcf (by rw [hz]; simp)
      rw [ofLE_toBytes] at h1
      simp only [Bool.false_eq_true, if_false] at h1
      rw [h1]
      intro h; cases h
    · cases hp'

/-! ## Steps of clients -/

/-- Two worlds with different devices. -/
structure Same {α β : Type} (a : PW α) (b : PW β) : Prop where
  ctr : a.ctr = b.ctr
  active : a.active = b.active
  lock : a.lock = b.lock
  cl : a.cl = b.cl
  raced : a.raced = b.raced
  late : a.late = b.late

theorem connect_congr {α β : Type} {d : PDev α} {e : PDev β} (h1 : d.pages = e.pages) (h2 : d.size = e.size) (h3 : d.page d.done = e.page e.done)
    (h4 : d.count = e.count) (p : PCfg) (a : Bool) (n : Nat) (u : PCl) : u.connect p d a n = u.connect p e a n := by
  unfold PCl.connect
  rw [h1, h2, h3, h4]

/-- The words that `fetch` takes. -/
def taken (p : PCfg) (m : Mem) (u : PCl) (b : Buf) : List W :=
  (((m.get ((4 + u.readPage * u.size) % 2 ^ 30) (readCount p b.replyWords)).drop 1).take b.replyWords).take
    (pageWords ((m.get ((4 + u.readPage * u.size) % 2 ^ 30) (readCount p b.replyWords)).headD 0#32))

theorem fetch_congr {α β : Type} {d : PDev α} {e : PDev β} {c : Cfg} {p : PCfg} {u : PCl}
    (h : ∀ b k q, u.queue = (b, k) :: q → taken p d.rep u b = taken p e.rep u b) : u.fetch c p d = u.fetch c p e := by
  unfold PCl.fetch
  cases hq : u.queue with
  | nil => rfl
  | cons x q =>
    obtain ⟨b, k⟩ := x
    have := h b k q hq
    simp only [taken] at this
    simp only [this]

local macro "done6" : tactic => `(tactic| first | exact ⟨⟨rfl, rfl, rfl, rfl, rfl, rfl⟩, rfl⟩ | exact ⟨⟨rfl, rfl, rfl, rfl, rfl, rfl⟩, trivial⟩)

theorem act_congr {α β : Type} {c : Cfg} {ps : Nat → PCfg} {r1 : α → List W → Option (List W) × α} {r2 : β → List W → Option (List W) × β} {w : PW α} {v : PW β} {a : PAct}
    (hS : Same w v) (h1 : w.dev.pages = v.dev.pages) (h2 : w.dev.size = v.dev.size) (h3 : w.dev.page w.dev.done = v.dev.page v.dev.done)
    (h4 : w.dev.count = v.dev.count) (h5 : w.dev.done < w.dev.written ↔ v.dev.done < v.dev.written) (hk : ∀ i, (ps i).kind ≠ .intr)
    (hf : ∀ i, (v.cl i).reading (ps i) = true → ((v.cl i).rd ≠ (v.cl i).pub ∨ (v.cl i).waited = true) → ∀ b k q, (v.cl i).queue = (b, k) :: q →
      taken (ps i) w.dev.rep (v.cl i) b = taken (ps i) v.dev.rep (v.cl i) b)
    (ha : a ≠ .dev) (hw : ∀ i, a ≠ .write i) : Same (w.act c ps r1 a) (v.act c ps r2 a) ∧ (v.act c ps r2 a).dev = v.dev := by
  obtain ⟨d, ctr, active, lock, cl, raced, late⟩ := w
  obtain ⟨e, ctr', active', lock', cl', raced', late'⟩ := v
  obtain ⟨s1, s2, s3, s4, s5, s6⟩ := hS
  simp only at s1 s2 s3 s4 s5 s6 h1 h2 h3 h4 h5 hf
  subst s1 s2 s3 s4 s5 s6
  have hc := connect_congr h1 h2 h3 h4
  cases a
  case dev => exact absurd rfl ha
  case write i => exact absurd rfl (hw i)
  case event i =>
    simp only [PW.act]
    rw [if_neg (fun h => hk i h.2.2.2.1), if_neg (fun h => hk i h.2.2.2.1)]
    done6
  case connect i =>
    simp only [PW.act, hc]
    cases hp : (cl i).pc <;> simp only <;> try done6
    all_goals (cases hn : (cl i).connected <;> done6)
  case poll i =>
    simp only [PW.act, h4]
    split <;> done6
  case fetch i =>
    simp only [PW.act]
    by_cases hx : (cl i).reading (ps i) = true ∧ ((cl i).rd ≠ (cl i).pub ∨ (cl i).waited = true)
    · rw [if_pos hx, if_pos hx, fetch_congr (c := c) (hf i hx.1 hx.2)]
      done6
    · rw [if_neg hx, if_neg hx]
      done6
  case start i =>
    simp only [PW.act, hc, h5]
    split <;> done6
  case fail i =>
    simp only [PW.act]
    cases hp : (cl i).pc <;> simp only <;> try done6
    split <;> done6
  all_goals
    simp only [PW.act, PW.release, PW.set]
    try split
    all_goals done6

/-! ## The relation -/

/-- A request that the target can be sent: well-formed, with ID 0; it and its reply fit in a page. -/
structure IsReq (cfg : List W) (s : Prop) (q : List W) : Prop where
  parses : ∃ txns, parsePacket .v2 q = some (0, txns) ∧ txns ≠ []
  fits : Fits 360 q
  answer : ∀ e r e', dummyReply .v2 (tgOf cfg) e q = (some r, e') → Fits 360 r
  /-- if so, it reads no more than there is in the configuration space -/
  safe : s → cfg.length = 10 ∧ ∀ txns, parsePacket .v2 q = some (0, txns) → ∀ x ∈ txns, ∀ a n, x.2 = .cfgRead a n → a.toNat + n ≤ 10

/-- What the requests look like in the FIFO. -/
def flat (qs : List (List W)) : List W := qs.flatMap framed

/-- The base class is in order. -/
structure Good (cfg : List W) (d : DH) : Prop where
  cfg : d.cfg = cfg
  hack : d.hack = false
  dead : d.dead = false

/-- The device of `Verif/Model/Paged.lean`. -/
abbrev PD := PDev (Dev (W → W))

/-- The pages are the same, but for the page that is being written, in which there are already the words `ws`. -/
def Part (f : FDev) (d : PD) (ws : List W) : Prop := ∀ x, 4 ≤ x → f.file x = d.rep.blit (4 + d.done % 3 * 360) ws x

/-- The target is between requests, or has read a page header. -/
structure Idle (cfg : List W) (f : FDev) (d : PD) : Prop where
  good : Good cfg f.hw
  env : d.env = ⟨f.hw.mem, f.hw.last⟩
  next : f.next = BitVec.ofNat 32 (d.done % 3)
  count : f.count = BitVec.ofNat 32 d.done
  part : Part f d []

/-- The target has the reply `r`, of which `ws` is in the file; `k` is 1 if the numbers have been incremented. -/
structure Busy (cfg : List W) (f : FDev) (d : PD) (r ws : List W) (k : Nat) : Prop where
  good : Good cfg f.hw
  req : ∃ q, d.reqs[d.done]? = some q ∧ dummyReply .v2 (tgOf cfg) d.env q = (some r, ⟨f.hw.mem, f.hw.last⟩)
  fifo : f.fifo = flat (d.reqs.drop (d.done + 1))
  next : f.next = BitVec.ofNat 32 ((d.done + k) % 3)
  count : f.count = BitVec.ofNat 32 (d.done + k)
  part : Part f d ws

/-- What the phases mean. -/
def PRel (cfg : List W) (s : Prop) (f : FDev) (d : PD) : Prop :=
  match f.phase with
  | .poll => f.fifo = flat (d.reqs.drop d.done) ∧ Idle cfg f d
  | .head n => (∃ q, d.reqs[d.done]? = some q ∧ n = q.length ∧ f.fifo = q ++ flat (d.reqs.drop (d.done + 1))) ∧ Idle cfg f d
  | .reply r => Busy cfg f d r [] 0
  | .body r => Busy cfg f d r [pageHeader r.length] 0
  | .status => ∃ r, Busy cfg f d r (framed r) 1
  | .aborted => (¬ s ∧ ∃ q, d.reqs[d.done]? = some q) ∧ Part f d []
  | .returned | .undefined => False

/-- The target and the device. -/
structure DRel (cfg : List W) (s : Prop) (f : FDev) (d : PD) : Prop where
  pages : d.pages = 3
  size : d.size = 360
  start : d.start = 0
  count0 : d.count0 = 0#32
  hung : d.hung = false
  st : f.file 0 = 3#32 ∧ f.file 1 = 360#32 ∧ f.file 2 = BitVec.ofNat 32 (d.done % 3) ∧ f.file 3 = BitVec.ofNat 32 d.done
  reqs : ∀ q ∈ d.reqs, IsReq cfg s q
  ph : PRel cfg s f d

/-- Everything. -/
structure Rel (cfg : List W) (s : Prop) (w : FW) (v : PW (Dev (W → W))) : Prop where
  same : Same w.clients v
  written : w.written = v.dev.written
  done : w.done = v.dev.done
  dev : DRel cfg s w.dev v.dev

theorem blit_nil (m : Mem) (a : Nat) : m.blit a [] = m := by
  funext x
  exact Mem.blit_other (by simp; omega)

theorem blit_snoc (m : Mem) (a : Nat) (xs ys : List W) : (m.blit a xs).blit (a + xs.length) ys = m.blit a (xs ++ ys) := by
  funext x
  unfold Mem.blit
  by_cases h1 : a ≤ x
  · by_cases h2 : a + xs.length ≤ x
    · simp only [h1, h2, if_true]
      rw [List.getElem?_append_right (by omega), List.getElem?_eq_none (l := xs) (by omega)]
      simp only [Option.getD_none]
      congr 2
      omega
    · simp only [h1, h2, if_true, if_false]
      rw [List.getElem?_append_left (by omega)]
  · simp only [h1, if_false]
    rw [if_neg (by omega)]

theorem blit_congr {m n : Mem} {a x : Nat} {ws : List W} (h : m x = n x) : m.blit a ws x = n.blit a ws x := by
  unfold Mem.blit
  rw [h]

/-- What the device does with a request. -/
theorem answer_eq {ρ : Type} {resp : ρ → List W → Option (List W) × ρ} {e0 : ρ} {d : PDev ρ} (hd : DInv resp e0 d) (hs : d.size ≤ 0xFFFF) (hh : d.hung = false)
    {q r : List W} {e : ρ} (hq : d.reqs[d.done]? = some q) (hr : resp d.env q = (some r, e)) :
    d.answer resp = { d with rep := d.rep.blit (4 + d.page d.done * d.size) (framed (r.take (d.size - 1))), done := d.done + 1, env := e, irq := true
                             ans := d.ans ++ [r.take (d.size - 1)] } := by
  have hlt : d.done < d.written := by
    have := (List.getElem?_eq_some_iff.1 hq).1
    rw [hd.nr] at this; exact this
  obtain ⟨h1, h2⟩ := holds_page (hd.req _ q (Nat.le_refl _) hq)
  have hf := hd.reql q (List.mem_of_getElem? hq)
  unfold Fits at hf
  have e2 : d.req.get (d.page d.done * d.size + 1) (pageWords (d.req (d.page d.done * d.size))) = q := by
    rw [h1, pageWords_header hf.1 (by omega)]; exact h2
  unfold PDev.answer
  rw [if_neg (by rw [hh]; simp; omega)]
  simp only [e2, hr]
  rfl

theorem drop_of_getElem {α : Type} {l : List α} {k : Nat} {x : α} (h : l[k]? = some x) : l.drop k = x :: l.drop (k + 1) := by
  obtain ⟨h1, h2⟩ := List.getElem?_eq_some_iff.1 h
  rw [List.drop_eq_getElem_cons h1, h2]

/-! ## Steps of the target -/

section
variable {cfg : List W} {s : Prop} {f : FDev} {d : PD} {e0 : Dev (W → W)}

theorem next_toNat (k : Nat) : (BitVec.ofNat 32 (k % 3)).toNat = k % 3 := by
  rw [BitVec.toNat_ofNat]; omega

theorem next_succ (k : Nat) : (BitVec.ofNat 32 (k % 3) + 1#32) % 3#32 = BitVec.ofNat 32 ((k + 1) % 3) := by
  apply BitVec.eq_of_toNat_eq
  rw [BitVec.toNat_umod, BitVec.toNat_add, next_toNat, next_toNat]
  have e1 : (1#32).toNat = 1 := rfl
  have e3 : (3#32).toNat = 3 := rfl
  rw [e1, e3, Nat.mod_eq_of_lt (show k % 3 + 1 < 2 ^ 32 by omega)]
  omega

/-- Steps of the target that do not publish a page. -/
theorem DRel.step (h : DRel cfg s f d) (hp : f.phase ≠ .status) : DRel cfg s f.step d := by
  have hph := h.ph
  have hst := h.st
  unfold PRel at hph
  cases hphase : f.phase with
  | status => exact absurd hphase hp
  | returned => rw [hphase] at hph; exact hph.elim
  | undefined => rw [hphase] at hph; exact hph.elim
  | aborted =>
    have e : f.step = f := by unfold FDev.step; rw [hphase]
    rw [e]; exact h
  | poll =>
    rw [hphase] at hph
    obtain ⟨h1, h2⟩ := hph
    cases hf : f.fifo with
    | nil =>
      have e : f.step = f := by unfold FDev.step; simp only [hphase, hf]
      rw [e]; exact h
    | cons x t =>
      have hq : ∃ q qs, d.reqs.drop d.done = q :: qs := by
        cases hd : d.reqs.drop d.done with
        | nil => rw [hf, hd] at h1; cases h1
        | cons q qs => exact ⟨q, qs, rfl⟩
      obtain ⟨q, qs, hq⟩ := hq
      have hq' : d.reqs[d.done]? = some q := by
        rw [← List.head?_drop, hq]; rfl
      rw [hf, drop_of_getElem hq'] at h1
      simp only [flat, List.flatMap_cons, framed, List.cons_append, List.cons.injEq] at h1
      obtain ⟨rfl, h1⟩ := h1
      have hfit := (h.reqs q (List.mem_of_getElem? hq')).fits
      unfold Fits at hfit
      have hw : pageWords (pageHeader q.length) = q.length := pageWords_header hfit.1 (by omega)
      have e : f.step = { f with fifo := t, phase := .head q.length } := by
        unfold FDev.step
        simp only [hphase, hf, hw]
        rw [if_neg (by omega)]
      rw [e]
      refine ⟨h.pages, h.size, h.start, h.count0, h.hung, hst, h.reqs, ?_⟩
      exact ⟨⟨q, hq', rfl, h1⟩, ⟨h2.good, h2.env, h2.next, h2.count, h2.part⟩⟩
  | head n =>
    rw [hphase] at hph
    obtain ⟨⟨q, hq, rfl, hfi⟩, h2⟩ := hph
    have hr := h.reqs q (List.mem_of_getElem? hq)
    have hfit := hr.fits
    unfold Fits at hfit
    obtain ⟨txns, t1, t2⟩ := hr.parses
    have etake : f.fifo.take q.length = q := by rw [hfi]; simp
    have edrop : f.fifo.drop q.length = flat (d.reqs.drop (d.done + 1)) := by rw [hfi]; simp
    have hlen : ¬ f.fifo.length < q.length := by rw [hfi]; simp
    have htg : f.hw.tg = tgOf cfg := by unfold DH.tg; rw [h2.good.cfg]
    rcases process_request h2.good.hack t1 t2 with hx | ⟨d', hx, hy, k1, k2, k3⟩
    · have e : f.step = { f with phase := .aborted } := by
        unfold FDev.step
        simp only [hphase]
        rw [if_neg (by omega), if_neg hlen, etake]
        simp only [hx]
      rw [e]
      refine ⟨h.pages, h.size, h.start, h.count0, h.hung, hst, h.reqs, ⟨?_, q, hq⟩, h2.part⟩
      intro hs
      obtain ⟨s1, s2⟩ := hr.safe hs
      exact process_alive h2.good.hack h2.good.dead (by rw [h2.good.cfg]; exact s1) t1 t2 (s2 txns t1) hx
    · have e : f.step = { f with fifo := flat (d.reqs.drop (d.done + 1)), hw := d', phase := .reply d'.reply } := by
        unfold FDev.step
        simp only [hphase]
        rw [if_neg (by omega), if_neg hlen, etake, edrop]
        simp only [hx]
      rw [e]
      refine ⟨h.pages, h.size, h.start, h.count0, h.hung, hst, h.reqs, ?_⟩
      rw [htg, ← h2.env] at hy
      exact ⟨⟨k1.trans h2.good.cfg, k2, k3⟩, ⟨q, hq, hy⟩, rfl, h2.next, h2.count, h2.part⟩
  | reply r =>
    rw [hphase] at hph
    have e : f.step = { f with file := f.file.blit (4 + d.done % 3 * 360) [pageHeader r.length], phase := .body r } := by
      unfold FDev.step
      simp only [hphase]
      rw [hph.next, next_toNat]
      rfl
    rw [e]
    refine ⟨h.pages, h.size, h.start, h.count0, h.hung, ?_, h.reqs, ⟨hph.good, hph.req, hph.fifo, hph.next, hph.count, ?_⟩⟩
    · simp only
      rw [Mem.blit_other (by omega), Mem.blit_other (by omega), Mem.blit_other (by omega), Mem.blit_other (by omega)]
      exact hst
    · intro x hx
      have := hph.part x hx
      rw [blit_nil] at this
      exact blit_congr this
  | body r =>
    rw [hphase] at hph
    have e : f.step = { f with
        file := f.file.blit (4 + d.done % 3 * 360 + 1) r
        next := (f.next + 1#32) % 3#32
        count := f.count + 1#32
        phase := .status } := by
      unfold FDev.step
      simp only [hphase]
      rw [hph.next, next_toNat]
      rfl
    rw [e]
    refine ⟨h.pages, h.size, h.start, h.count0, h.hung, ?_, h.reqs, r, ⟨hph.good, hph.req, hph.fifo, ?_, ?_, ?_⟩⟩
    · simp only
      rw [Mem.blit_other (by omega), Mem.blit_other (by omega), Mem.blit_other (by omega), Mem.blit_other (by omega)]
      exact hst
    · simp only
      rw [hph.next]; exact next_succ d.done
    · simp only
      rw [hph.count, Nat.add_zero, BitVec.ofNat_add]
    · intro x hx
      have := hph.part x hx
      show f.file.blit _ _ x = _
      rw [blit_congr this]
      exact congrFun (blit_snoc d.rep (4 + d.done % 3 * 360) [pageHeader r.length] r) x

/-- A page is published. -/
theorem DRel.publish (h : DRel cfg s f d) (hd : DInv (dummyReply .v2 (tgOf cfg)) e0 d) (hp : f.phase = .status) :
    DRel cfg s f.step (d.answer (dummyReply .v2 (tgOf cfg))) ∧ (d.answer (dummyReply .v2 (tgOf cfg))).done = d.done + 1 ∧
      (d.answer (dummyReply .v2 (tgOf cfg))).written = d.written := by
  have hph := h.ph
  unfold PRel at hph
  rw [hp] at hph
  obtain ⟨r, hb⟩ := hph
  obtain ⟨q, hq, hr⟩ := hb.req
  have hfit := (h.reqs q (List.mem_of_getElem? hq)).answer _ _ _ hr
  unfold Fits at hfit
  have et : r.take (d.size - 1) = r := by rw [h.size]; exact List.take_of_length_le (by omega)
  have ep : d.page d.done = d.done % 3 := by unfold PDev.page; rw [h.start, h.pages, Nat.zero_add]
  rw [answer_eq hd (by rw [h.size]; omega) h.hung hq hr, et, ep, h.size]
  refine ⟨⟨h.pages, rfl, h.start, h.count0, h.hung, ?_, h.reqs, ?_⟩, rfl, rfl⟩
  · have hn := hb.next
    have hc := hb.count
    unfold FDev.step
    simp only [hp, hn, hc]
    exact ⟨rfl, rfl, rfl, rfl⟩
  · have e : f.step = { f with file := f.file.blit 0 [3#32, 360#32, f.next, f.count], phase := .poll } := by
      unfold FDev.step
      simp only [hp]
    rw [e]
    refine ⟨hb.fifo, hb.good, rfl, hb.next, hb.count, ?_⟩
    intro x hx
    show f.file.blit 0 [3#32, 360#32, f.next, f.count] x = (d.rep.blit (4 + d.done % 3 * 360) (framed r)).blit _ [] x
    rw [blit_nil, Mem.blit_other (by simp; omega)]
    exact hb.part x hx

/-- Outside of the page of the next request, the file is the same. -/
theorem DRel.agree (h : DRel cfg s f d) (x : Nat) (h4 : 4 ≤ x) (hx : d.reqs.length ≤ d.done ∨ x < 4 + d.done % 3 * 360 ∨ 4 + d.done % 3 * 360 + 360 ≤ x) :
    f.file x = d.rep x := by
  have hph := h.ph
  have key : ∀ r ws k, Busy cfg f d r ws k → ws.length ≤ r.length + 1 → f.file x = d.rep x := by
    intro r ws k hb hl
    obtain ⟨q, hq, hr⟩ := hb.req
    have hlt := (List.getElem?_eq_some_iff.1 hq).1
    have hfit := (h.reqs q (List.mem_of_getElem? hq)).answer _ _ _ hr
    unfold Fits at hfit
    rw [hb.part x h4]
    exact Mem.blit_other (by omega)
  unfold PRel at hph
  split at hph
  · rw [hph.2.part x h4, blit_nil]
  · rw [hph.2.part x h4, blit_nil]
  · exact key _ _ _ hph (by simp)
  · exact key _ _ _ hph (by simp)
  · obtain ⟨r, hb⟩ := hph; exact key _ _ _ hb (by simp [framed])
  · rw [hph.2 x h4, blit_nil]
  · exact hph.elim
  · exact hph.elim

end

/-! ## Steps of the world -/

/-- What is said about the buffers handed over. -/
def _root_.Verif.PAct.okFor (cfg : List W) (s : Prop) : PAct → Prop
  | .call _ b => IsReq cfg s b.send
  | _ => True

theorem holds_congr {m n : Mem} {a : Nat} {ws : List W} (h : ∀ x, a ≤ x → x < a + ws.length → n x = m x) (hm : m.holds a ws) : n.holds a ws := by
  unfold Mem.holds at hm ⊢
  rw [← hm]
  unfold Mem.get
  rw [List.length_map, List.length_range]
  apply List.map_congr_left
  intro j hj
  rw [List.mem_range] at hj
  exact h _ (by omega) (by omega)

section
variable {cfg : List W} {s : Prop} {c : Cfg} {ps : Nat → PCfg} {e0 : Dev (W → W)} {w : FW} {v : PW (Dev (W → W))}

theorem DRel.dinv {f : FDev} {d : PD} (h : DRel cfg s f d) (hd : DInv (dummyReply .v2 (tgOf cfg)) e0 d) :
    DInv (dummyReply .v2 (tgOf cfg)) e0 { d with rep := f.file } := by
  refine ⟨hd.le, hd.nr, hd.na, hd.reql, hd.ansl, hd.req, ?_, hd.served⟩
  intro k a hk ha
  have hh := hd.rep k a hk ha
  have hf := hd.ansl a (List.mem_of_getElem? ha)
  have hkd : k < d.done := by
    have := (List.getElem?_eq_some_iff.1 ha).1
    rw [hd.na] at this; exact this
  have hk : d.written ≤ k + d.pages := hk
  have ep : d.page k = k % 3 := by unfold PDev.page; rw [h.start, h.pages, Nat.zero_add]
  unfold Fits at hf
  refine holds_congr (m := d.rep) ?_ hh
  intro x h1 h2
  have h1 : 4 + d.page k * d.size ≤ x := h1
  have h2 : x < 4 + d.page k * d.size + (framed a).length := h2
  rw [ep, h.size] at h1 h2
  rw [h.size] at hf
  rw [h.pages] at hk
  simp only [framed, List.length_cons] at h2
  refine h.agree x (by omega) ?_
  by_cases hx : d.written ≤ d.done
  · left; rw [hd.nr]; exact hx
  · right
    have : k % 3 ≠ d.done % 3 := by omega
    omega

/-- The words that a client takes are the same. -/
theorem Rel.taken (h : Rel cfg s w v) (hg : PG ps (dummyReply .v2 (tgOf cfg)) e0 v) (i : Nat) (hr : (v.cl i).reading (ps i) = true)
    (hn : (v.cl i).rd ≠ (v.cl i).pub ∨ (v.cl i).waited = true) (b : Buf) (k : Nat) (q : List (Buf × Nat)) (hq : (v.cl i).queue = (b, k) :: q) :
    taken (ps i) w.clients.dev.rep (v.cl i) b = taken (ps i) v.dev.rep (v.cl i) b := by
  have hc := hg.cl i
  have hok := PCl.reading_ok hr
  have hs := hc.started_of_queue (by rw [hq]; intro h; cases h)
  have hy := (hc.fresh (hc.fresh_of_started hs hok)).1
  have hn : (v.cl i).rd ≠ (v.cl i).pub := by
    rcases hn with hn | hn
    · exact hn
    · rw [hc.wt] at hn; cases hn
  obtain ⟨hkd, _⟩ := hy.ready hq hn
  have ha : ∃ a, v.dev.ans[k]? = some a := ⟨_, List.getElem?_eq_getElem (by rw [hg.dev.na]; exact hkd)⟩
  obtain ⟨a, ha⟩ := ha
  have h0 : 0 < v.dev.pages := by rw [h.dev.pages]; omega
  have hf : 4 + v.dev.pages * v.dev.size ≤ 2 ^ 30 := by rw [h.dev.pages, h.dev.size]; omega
  have h2 : 2 ≤ v.dev.size := by rw [h.dev.size]; omega
  have h3 : v.dev.size ≤ 0xFFFF := by rw [h.dev.size]; omega
  have e1 := hy.words hg.dev hq h0 hf h2 h3 ha
  have hy' : Sync (ps i) { v.dev with rep := w.dev.file } (v.cl i) :=
    ⟨hy.pages, hy.size, hy.idx, hy.maxIn, hy.lim, hy.len, hy.num, hy.snd, hy.rd, hy.pub⟩
  have e2 := hy'.words (h.dev.dinv hg.dev) hq h0 hf h2 h3 ha
  exact e2.trans e1.symm

theorem Rel.of_same {w' : FW} {v' : PW (Dev (W → W))} (h : Rel cfg s w v) (hS : Same w'.clients v') (hd : w'.dev = w.dev) (hw : w'.written = w.written)
    (hn : w'.done = w.done) (hv : v'.dev = v.dev) : Rel cfg s w' v' :=
  ⟨hS, by rw [hw, hv]; exact h.written, by rw [hn, hv]; exact h.done, by rw [hd, hv]; exact h.dev⟩

/-- Steps of clients other than writing. -/
theorem Rel.client (h : Rel cfg s w v) (hg : PG ps (dummyReply .v2 (tgOf cfg)) e0 v) (hk : ∀ i, (ps i).kind ≠ .intr) {a : PAct} (ha : a ≠ .dev)
    (hw : ∀ i, a ≠ .write i) : Rel cfg s (w.act c ps a) (v.act c ps (dummyReply .v2 (tgOf cfg)) a) := by
  have hst := h.dev.st
  have hd := h.dev
  have e3 : v.dev.page v.dev.done = v.dev.done % 3 := by unfold PDev.page; rw [hd.start, hd.pages, Nat.zero_add]
  obtain ⟨hS, hv⟩ := act_congr (c := c) (ps := ps) (r1 := fun e _ => (none, e)) (r2 := dummyReply .v2 (tgOf cfg)) (w := w.clients) (v := v) (a := a) h.same
    (by show (w.dev.file 0).toNat = _; rw [hst.1, hd.pages]; rfl) (by show (w.dev.file 1).toNat = _; rw [hst.2.1, hd.size]; rfl)
    (by show (((w.dev.file 2).toNat + 0) % (w.dev.file 0).toNat) = _
        rw [hst.1, hst.2.2.1, e3, next_toNat]
        show (v.dev.done % 3 + 0) % 3 = _
        omega)
    (by show w.dev.file 3 + BitVec.ofNat 32 0 = v.dev.count0 + BitVec.ofNat 32 v.dev.done
        rw [hst.2.2.2, hd.count0]; simp)
    (by show 0 < w.written - w.done ↔ _
        rw [h.written, h.done]; omega) hk (fun i h1 h2 b k q hq => h.taken hg i h1 h2 b k q hq) ha hw
  cases a
  case dev => exact absurd rfl ha
  case write i => exact absurd rfl (hw i)
  all_goals exact h.of_same ⟨hS.ctr, hS.active, hS.lock, hS.cl, hS.raced, hS.late⟩ rfl rfl rfl hv

theorem flat_append (xs ys : List (List W)) : flat (xs ++ ys) = flat xs ++ flat ys := by
  unfold flat; rw [List.flatMap_append]

/-- A request arrives in the FIFO. -/
theorem DRel.write {f : FDev} {d : PD} {p : PCfg} {u : PCl} {b : Buf} (h : DRel cfg s f d) (hd : d.done ≤ d.reqs.length) (hb : IsReq cfg s b.send) :
    DRel cfg s { f with fifo := f.fifo ++ pageHeader b.send.length :: b.send } (u.write p b d).1 := by
  have hph := h.ph
  have hlast : flat [b.send] = pageHeader b.send.length :: b.send := by simp [flat, framed]
  have hdrop : ∀ k, k ≤ d.reqs.length → flat ((d.reqs ++ [b.send]).drop k) = flat (d.reqs.drop k) ++ pageHeader b.send.length :: b.send := by
    intro k hk
    rw [List.drop_append_of_le_length hk, flat_append, hlast]
  have hget : ∀ q, d.reqs[d.done]? = some q → (d.reqs ++ [b.send])[d.done]? = some q := by
    intro q hq
    rw [List.getElem?_append_left (List.getElem?_eq_some_iff.1 hq).1]; exact hq
  refine ⟨h.pages, h.size, h.start, h.count0, h.hung, h.st, ?_, ?_⟩
  · intro q hq
    rcases List.mem_append.1 (show q ∈ d.reqs ++ [b.send] from hq) with hq | hq
    · exact h.reqs q hq
    · rw [List.mem_singleton.1 hq]; exact hb
  · have key : ∀ r ws k, Busy cfg f d r ws k → Busy cfg { f with fifo := f.fifo ++ pageHeader b.send.length :: b.send } (u.write p b d).1 r ws k := by
      intro r ws k hk
      obtain ⟨q, hq, hr⟩ := hk.req
      refine ⟨hk.good, ⟨q, hget q hq, hr⟩, ?_, hk.next, hk.count, hk.part⟩
      show f.fifo ++ _ = flat ((d.reqs ++ [b.send]).drop (d.done + 1))
      rw [hdrop _ (List.getElem?_eq_some_iff.1 hq).1, hk.fifo]
    unfold PRel at hph ⊢
    split at hph <;> rename_i hphase <;> simp only [hphase] at key ⊢
    · refine ⟨?_, hph.2.good, hph.2.env, hph.2.next, hph.2.count, hph.2.part⟩
      show f.fifo ++ _ = flat ((d.reqs ++ [b.send]).drop d.done)
      rw [hdrop _ hd, hph.1]
    · obtain ⟨⟨q, hq, hn, hf⟩, h2⟩ := hph
      refine ⟨⟨q, hget q hq, hn, ?_⟩, h2.good, h2.env, h2.next, h2.count, h2.part⟩
      show f.fifo ++ _ = q ++ flat ((d.reqs ++ [b.send]).drop (d.done + 1))
      rw [hdrop _ (List.getElem?_eq_some_iff.1 hq).1, hf, List.append_assoc]
    · exact key _ _ _ hph
    · exact key _ _ _ hph
    · obtain ⟨r, hr⟩ := hph; exact ⟨r, key _ _ _ hr⟩
    · obtain ⟨⟨hs, q, hq⟩, hpt⟩ := hph
      exact ⟨⟨hs, q, hget q hq⟩, hpt⟩
    · exact hph
    · exact hph

/-- Writing. -/
theorem Rel.write (h : Rel cfg s w v) (hg : PG ps (dummyReply .v2 (tgOf cfg)) e0 v) (i : Nat) (hb : ∀ b, (v.cl i).pc = .disp b → IsReq cfg s b.send) :
    Rel cfg s (w.act c ps (.write i)) (v.act c ps (dummyReply .v2 (tgOf cfg)) (.write i)) := by
  have hcl : w.cl = v.cl := h.same.cl
  simp only [FW.act, PW.act, hcl]
  cases hw : (v.cl i).writing (ps i) with
  | none => exact h
  | some b =>
    simp only
    by_cases hx : (v.cl i).have_ = true ∧ (v.cl i).started = true
    · rw [if_pos hx, if_pos hx]
      refine ⟨⟨h.same.ctr, h.same.active, h.same.lock, ?_, h.same.raced, h.same.late⟩, ?_, h.done, ?_⟩
      · funext j
        show (if j = i then ((v.cl i).write (ps i) b { w.seen with written := w.written }).2 else v.cl j) = if j = i then ((v.cl i).write (ps i) b v.dev).2 else v.cl j
        unfold PCl.write
        simp only [h.written]
      · show w.written + 1 = v.dev.written + 1
        rw [h.written]
      · exact h.dev.write (by have := hg.dev.le; rw [hg.dev.nr]; exact this) (hb b (PCl.writing_some hw).1)
    · rw [if_neg hx, if_neg hx]; exact h

/-- The target works. -/
theorem Rel.work (h : Rel cfg s w v) (hp : w.dev.phase ≠ .status) : Rel cfg s (w.act c ps .dev) v := by
  simp only [FW.act, if_neg hp]
  exact ⟨⟨h.same.ctr, h.same.active, h.same.lock, h.same.cl, h.same.raced, h.same.late⟩, h.written, h.done, h.dev.step hp⟩

/-- The target publishes a page. -/
theorem Rel.publish (h : Rel cfg s w v) (hg : PG ps (dummyReply .v2 (tgOf cfg)) e0 v) (hp : w.dev.phase = .status) :
    Rel cfg s (w.act c ps .dev) (v.act c ps (dummyReply .v2 (tgOf cfg)) .dev) := by
  obtain ⟨h1, h2, h3⟩ := h.dev.publish hg.dev hp
  simp only [FW.act, PW.act, if_pos hp]
  refine ⟨⟨h.same.ctr, h.same.active, h.same.lock, h.same.cl, h.same.raced, h.same.late⟩, ?_, ?_, h1⟩
  · show w.written = _
    rw [h.written]; exact h3.symm
  · show w.done + 1 = _
    rw [h.done]; exact h2.symm

end

/-- Buffers come from calls. -/
theorem act_disp {ρ : Type} {c : Cfg} {ps : Nat → PCfg} {resp : ρ → List W → Option (List W) × ρ} {v : PW ρ} {a : PAct} {j : Nat} {b : Buf}
    (h : ((v.act c ps resp a).cl j).pc = .disp b) : (v.cl j).pc = .disp b ∨ a = .call j b := by
  have hset : ∀ (v' : PW ρ) (i : Nat) (u : PCl), v'.cl = v.cl → ((v'.set i u).cl j).pc = .disp b → (u.pc = (v.cl i).pc ∨ ∀ b, u.pc ≠ .disp b) → (v.cl j).pc = .disp b := by
    intro v' i u hv hx hu
    by_cases hj : j = i
    · subst hj
      rw [PW.set_self] at hx
      rcases hu with hu | hu
      · rw [← hu]; exact hx
      · exact absurd hx (hu b)
    · rw [PW.set_ne _ _ hj, hv] at hx; exact hx
  have hcon : ∀ (u : PCl) (p : PCfg) (d : PDev ρ) (x : Bool) (n : Nat), (u.connect p d x n).pc = u.pc ∨ ∀ b, (u.connect p d x n).pc ≠ .disp b := by
    intro u p d x n
    unfold PCl.connect
    simp only
    repeat' split
    all_goals first | exact .inl rfl | exact .inr (by intro b h; cases h)
  cases a <;> simp only [PW.act] at h
  case dev => exact .inl h
  case call i b' =>
    split at h
    · by_cases hj : j = i
      · subst hj
        rw [PW.set_self] at h
        injection h with h
        exact .inr (by rw [h])
      · rw [PW.set_ne _ _ hj] at h; exact .inl h
    · exact .inl h
  case connect i =>
    left
    split at h
    · split at h
      · exact h
      · exact hset v i _ rfl h (hcon ..)
    · split at h
      · exact h
      · exact hset v i _ rfl h (hcon ..)
    · exact h
  case fetch i =>
    left
    split at h
    · refine hset v i _ rfl h ?_
      cases hq : (v.cl i).queue with
      | nil => left; unfold PCl.fetch; rw [hq]
      | cons x q =>
        obtain ⟨b', k⟩ := x
        obtain ⟨ws, r, pc, cr, he, _, _, hpc⟩ := PCl.fetch_cons (c := c) (p := ps i) (d := v.dev) hq
        rw [he]
        rcases hpc with hp | hp | hp
        · exact .inl hp.1
        · exact .inr (by intro b h; rw [show pc = _ from hp.1] at h; cases h)
        · exact .inr (by intro b h; rw [show pc = _ from hp.1] at h; cases h)
    · exact h
  case start i =>
    left
    split at h
    · refine hset { v with ctr := v.ctr + 1, active := true, late := v.late || decide (v.dev.done < v.dev.written) } i _ rfl h ?_
      split
      · exact hcon ..
      · exact .inl rfl
    · exact h
  case write i =>
    left
    split at h
    · split at h
      · exact hset { v with dev := _ } i _ rfl h (.inr (by intro b h; cases h))
      · exact h
    · exact h
  case event i =>
    left
    split at h
    · exact hset { v with dev := _ } i _ rfl h (.inl rfl)
    · exact h
  case poll i =>
    left
    split at h
    · exact hset v i _ rfl h (.inl rfl)
    · exact h
  case flock i =>
    left
    split at h
    · exact hset { v with lock := some i } i _ rfl h (.inl rfl)
    · exact h
  case finish i =>
    left
    split at h
    · exact hset { v with active := false, raced := _ } i _ rfl h (.inr (by intro b h; cases h))
    · exact h
  case fail i =>
    left
    repeat' split at h
    all_goals first | exact h | exact hset v i _ rfl h (.inr (by intro b h; cases h))
  case callFlush i =>
    left
    split at h
    · exact hset v i _ rfl h (.inr (by intro b h; cases h))
    · exact h
  case unlock i =>
    left
    split at h
    · exact hset (v.release i) i _ rfl h (.inr (by intro b h; cases h))
    · exact h
  case handler i =>
    left
    split at h
    · exact hset (v.release i) i _ rfl h (.inr (by intro b h; cases h))
    · exact h
  case crash i => exact .inl (hset (v.release i) i _ rfl h (.inr (by intro b h; cases h)))
  case halfStart i =>
    left
    split at h
    · exact hset ({ v with ctr := v.ctr + 1 }.release i) i _ rfl h (.inr (by intro b h; cases h))
    · exact h

section
variable {cfg : List W} {s : Prop} {c : Cfg} {ps : Nat → PCfg} {e0 : Dev (W → W)} {w : FW} {v : PW (Dev (W → W))}

/-- The relation, and the invariant of the device with pages. -/
structure All (cfg : List W) (s : Prop) (c : Cfg) (ps : Nat → PCfg) (e0 : Dev (W → W)) (w : FW) (v : PW (Dev (W → W))) : Prop where
  rel : Rel cfg s w v
  pg : PG ps (dummyReply .v2 (tgOf cfg)) e0 v
  gi : GI c v
  hp : PHyp ps (dummyReply .v2 (tgOf cfg)) v.dev
  bufs : ∀ i b, (v.cl i).pc = .disp b → IsReq cfg s b.send

/-- What the device with pages does meanwhile. -/
def FW.shadow (w : FW) (a : PAct) : List PAct := if a.who = none ∧ w.dev.phase ≠ .status then [] else [a]

theorem Rel.step (h : Rel cfg s w v) (hg : PG ps (dummyReply .v2 (tgOf cfg)) e0 v) (hk : ∀ i, (ps i).kind ≠ .intr) (a : PAct)
    (hb : ∀ i b, (v.cl i).pc = .disp b → IsReq cfg s b.send) :
    Rel cfg s (w.act c ps a) (v.sched c ps (dummyReply .v2 (tgOf cfg)) (w.shadow a)) := by
  by_cases ha : a = .dev
  · subst ha
    by_cases hp : w.dev.phase = .status
    · rw [FW.shadow, if_neg (by rw [hp]; simp)]
      exact h.publish hg hp
    · rw [FW.shadow, if_pos ⟨rfl, hp⟩]
      exact h.work hp
  · have hw : a.who ≠ none := by cases a <;> simp [PAct.who] at ha ⊢
    rw [FW.shadow, if_neg (fun h => hw h.1)]
    by_cases hi : ∃ i, a = .write i
    · obtain ⟨i, rfl⟩ := hi
      exact h.write hg i (hb i)
    · exact h.client hg hk ha fun i hx => hi ⟨i, hx⟩

theorem All.step (h : All cfg s c ps e0 w v) {a : PAct} (ha : a.okFor cfg s) (hr : (w.act c ps a).raced = false) (hl : (w.act c ps a).late = false) :
    All cfg s c ps e0 (w.act c ps a) (v.sched c ps (dummyReply .v2 (tgOf cfg)) (w.shadow a)) := by
  have hrel := h.rel.step (c := c) h.pg h.hp.kind a h.bufs
  unfold FW.shadow at hrel ⊢
  split at hrel
  · rename_i hx
    rw [if_pos hx]
    exact ⟨hrel, h.pg, h.gi, h.hp, h.bufs⟩
  · rename_i hx
    rw [if_neg hx]
    have e1 : v.sched c ps (dummyReply .v2 (tgOf cfg)) [a] = v.act c ps (dummyReply .v2 (tgOf cfg)) a := rfl
    rw [e1] at hrel ⊢
    have hfit : a.fits v.dev.size := by
      cases a <;> try trivial
      rw [h.rel.dev.size]
      exact ha.fits
    obtain ⟨h1, h2⟩ := h.pg.step h.gi h.hp hfit (by rw [← hrel.same.raced]; exact hr) (by rw [← hrel.same.late]; exact hl)
    refine ⟨hrel, h1, h2, h.hp.same (act_same (ps := ps) (resp := dummyReply .v2 (tgOf cfg)) c v a), ?_⟩
    intro i b hb
    rcases act_disp hb with hb | rfl
    · exact h.bufs i b hb
    · exact ha

theorem FW.act_flags (c : Cfg) (ps : Nat → PCfg) (w : FW) (a : PAct) : (w.raced = true → (w.act c ps a).raced = true) ∧ (w.late = true → (w.act c ps a).late = true) := by
  have h := Verif.act_flags (ps := ps) (resp := fun (e : Unit) (_ : List W) => (none, e)) c w.clients a
  cases a
  case dev => exact ⟨id, id⟩
  case write i =>
    simp only [FW.act]
    repeat' split
    all_goals exact ⟨id, id⟩
  all_goals exact h

theorem FW.sched_flags (c : Cfg) (ps : Nat → PCfg) (as : List PAct) : ∀ w : FW,
    (w.raced = true → (w.sched c ps as).raced = true) ∧ (w.late = true → (w.sched c ps as).late = true) := by
  induction as with
  | nil => intro w; exact ⟨id, id⟩
  | cons a as ih =>
    intro w
    obtain ⟨h1, h2⟩ := FW.act_flags c ps w a
    obtain ⟨h3, h4⟩ := ih (w.act c ps a)
    exact ⟨fun h => h3 (h1 h), fun h => h4 (h2 h)⟩

theorem All.sched (as : List PAct) : ∀ {w : FW} {v : PW (Dev (W → W))}, All cfg s c ps e0 w v → (∀ a ∈ as, a.okFor cfg s) → (w.sched c ps as).raced = false →
    (w.sched c ps as).late = false → ∃ as', (∀ a ∈ as', a ∈ as) ∧ All cfg s c ps e0 (w.sched c ps as) (v.sched c ps (dummyReply .v2 (tgOf cfg)) as') := by
  induction as with
  | nil => intro w v h _ _ _; exact ⟨[], (by intro _ h; cases h), h⟩
  | cons a as ih =>
    intro w v h ha hr hl
    have hfl := FW.sched_flags c ps as (w.act c ps a)
    have f1 : ∀ b b' : Bool, (b = true → b' = true) → b' = false → b = false := by decide
    have h1 := h.step (ha a List.mem_cons_self) (f1 _ _ hfl.1 hr) (f1 _ _ hfl.2 hl)
    obtain ⟨as', h2, h3⟩ := ih h1 (fun x hx => ha x (List.mem_cons_of_mem _ hx)) hr hl
    refine ⟨w.shadow a ++ as', ?_, ?_⟩
    · intro x hx
      rcases List.mem_append.1 hx with hx | hx
      · unfold FW.shadow at hx
        split at hx
        · cases hx
        · rw [List.mem_singleton.1 hx]; exact List.mem_cons_self
      · exact List.mem_cons_of_mem _ (h2 x hx)
    · show All cfg s c ps e0 _ (List.foldl _ _ (w.shadow a ++ as'))
      rw [List.foldl_append]; exact h3

/-! ## Progress -/

/-- How far the target is with a request. -/
def Phase.idx : Phase → Nat
  | .head _ => 1
  | .reply _ => 2
  | .body _ => 3
  | .status => 4
  | _ => 0

/-- Steps until there is nothing to be done. -/
def FW.rest (w : FW) : Nat := 5 * (w.written - w.done) - w.dev.phase.idx

theorem All.pending (h : All cfg s c ps e0 w v) (hp : w.dev.phase ≠ .poll) : w.done < w.written := by
  have hph := h.rel.dev.ph
  have key : (∃ q, v.dev.reqs[v.dev.done]? = some q) → w.done < w.written := by
    rintro ⟨q, hq⟩
    have := (List.getElem?_eq_some_iff.1 hq).1
    rw [h.rel.done, h.rel.written, ← h.pg.dev.nr]; exact this
  unfold PRel at hph
  split at hph
  · rename_i hx; exact absurd hx hp
  · obtain ⟨⟨q, hq, _⟩, _⟩ := hph; exact key ⟨q, hq⟩
  · obtain ⟨q, hq, _⟩ := hph.req; exact key ⟨q, hq⟩
  · obtain ⟨q, hq, _⟩ := hph.req; exact key ⟨q, hq⟩
  · obtain ⟨r, hb⟩ := hph
    obtain ⟨q, hq, _⟩ := hb.req; exact key ⟨q, hq⟩
  · exact key hph.1.2
  · exact hph.elim
  · exact hph.elim

theorem All.rest_zero (h : All cfg s c ps e0 w v) (h0 : w.rest = 0) : w.done = w.written ∧ w.dev.phase = .poll := by
  have hle : w.done ≤ w.written := by rw [h.rel.done, h.rel.written]; exact h.pg.dev.le
  by_cases hp : w.dev.phase = .poll
  · unfold FW.rest at h0
    rw [hp] at h0
    simp only [Phase.idx] at h0
    exact ⟨by omega, hp⟩
  · have := h.pending hp
    unfold FW.rest at h0
    have hi : w.dev.phase.idx ≤ 4 := by cases w.dev.phase <;> simp [Phase.idx]
    omega

/-- Every step of the target brings it further. -/
theorem All.work (h : All cfg True c ps e0 w v) : (w.act c ps .dev).rest = w.rest - 1 := by
  have hst := h.rel.dev
  have hph := hst.ph
  have hlt := h.pending
  have hr : (w.act c ps .dev).rest = 5 * (w.written - if w.dev.phase = .status then w.done + 1 else w.done) - w.dev.step.phase.idx := rfl
  have step : w.dev.phase ≠ .status → w.done < w.written → w.dev.step.phase.idx = w.dev.phase.idx + 1 → (w.act c ps .dev).rest = w.rest - 1 := by
    intro h1 h2 h3
    rw [hr, if_neg h1, h3]
    unfold FW.rest
    omega
  unfold PRel at hph
  cases hphase : w.dev.phase with
  | poll =>
    rw [hphase] at hph
    cases hd : v.dev.reqs.drop v.dev.done with
    | nil =>
      rw [hd] at hph
      have hz : w.written - w.done = 0 := by
        have := congrArg List.length hd
        rw [List.length_drop, h.pg.dev.nr] at this
        rw [h.rel.done, h.rel.written]; exact this
      rw [hr, hphase]
      simp only [reduceCtorEq, if_false]
      unfold FW.rest
      rw [hz]
      omega
    | cons q qs =>
      have hq : v.dev.reqs[v.dev.done]? = some q := by rw [← List.head?_drop, hd]; rfl
      have hl := (List.getElem?_eq_some_iff.1 hq).1
      rw [h.pg.dev.nr, ← h.rel.done, ← h.rel.written] at hl
      refine step (by rw [hphase]; intro h; cases h) hl ?_
      have hfit := (hst.reqs q (List.mem_of_getElem? hq)).fits
      unfold Fits at hfit
      have hw : pageWords (pageHeader q.length) = q.length := pageWords_header hfit.1 (by omega)
      rw [hd] at hph
      have hf : w.dev.fifo = pageHeader q.length :: (q ++ flat qs) := by rw [hph.1]; rfl
      unfold FDev.step
      simp only [hphase, hf, hw]
      rw [if_neg (by omega)]
      rfl
  | head n =>
    refine step (by rw [hphase]; intro h; cases h) (hlt (by rw [hphase]; intro h; cases h)) ?_
    have hnext := (hst.step (by rw [hphase]; intro h; cases h)).ph
    rw [hphase] at hph
    obtain ⟨⟨q, hq, rfl, hfi⟩, h2⟩ := hph
    have hfit := (hst.reqs q (List.mem_of_getElem? hq)).fits
    unfold Fits at hfit
    have hlen : ¬ w.dev.fifo.length < q.length := by rw [hfi]; simp
    rw [hphase]
    unfold PRel at hnext
    unfold FDev.step at hnext ⊢
    simp only [hphase] at hnext ⊢
    rw [if_neg (by omega), if_neg hlen] at hnext ⊢
    cases hx : DH.process .v2 { w.dev.hw with reply := [] } (w.dev.fifo.take q.length) with
    | ok d => rfl
    | threw => rw [hx] at hnext; exact absurd trivial hnext.1.1
    | ub => rw [hx] at hnext; exact hnext.elim
  | reply r =>
    refine step (by rw [hphase]; intro h; cases h) (hlt (by rw [hphase]; intro h; cases h)) ?_
    unfold FDev.step
    simp only [hphase]
    rfl
  | body r =>
    refine step (by rw [hphase]; intro h; cases h) (hlt (by rw [hphase]; intro h; cases h)) ?_
    unfold FDev.step
    simp only [hphase]
    rfl
  | status =>
    have hl := hlt (by rw [hphase]; intro h; cases h)
    have hi : w.dev.step.phase = .poll := by unfold FDev.step; simp only [hphase]
    rw [hr, if_pos hphase, hi]
    unfold FW.rest
    rw [hphase]
    simp only [Phase.idx]
    omega
  | aborted => rw [hphase] at hph; exact absurd trivial hph.1.1
  | returned => rw [hphase] at hph; exact hph.elim
  | undefined => rw [hphase] at hph; exact hph.elim

/-- When the target has had enough steps, all requests have been answered. -/
theorem All.works (n : Nat) : ∀ {w : FW} {v : PW (Dev (W → W))}, All cfg True c ps e0 w v → w.raced = false → w.late = false → w.rest ≤ n →
    (w.sched c ps (List.replicate n .dev)).done = w.written ∧ (w.sched c ps (List.replicate n .dev)).dev.phase = .poll := by
  induction n with
  | zero =>
    intro w v h _ _ hn
    exact h.rest_zero (by omega)
  | succ n ih =>
    intro w v h hr hl hn
    have h1 := h.step (a := .dev) trivial hr hl
    exact ih h1 hr hl (by rw [h.work]; omega)

end

end Verif.PcieDummy
