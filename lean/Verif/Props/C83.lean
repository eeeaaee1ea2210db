import Verif.Model.Era
import Verif.Props.C80
/-!
# C83: device clients may be replaced when they have nothing to do

See `/verif/properties.jsonl` and `DESIGN.md`. The programs of several clients through one ControlHub (C80) where device clients end when they have nothing to do and are replaced by new ones.
-/

set_option autoImplicit false
set_option linter.unusedSimpArgs false

namespace Verif
open Spec
open Verif.Hub (Bytes controlRequests Prompt)
open Verif.TraMgr (Hall HEv Era EEv binsOf plain)

section
variable {σ : Type} {exec : σ → Bytes → σ × Bytes} {absMax p : Nat} {mem : Nat → Bool} {a : TraMgr.Addr}

/-- When a device client ends, it has taken all that was cast to it. -/
def NoneLost (exec : σ → Bytes → σ × Bytes) (absMax : Nat) (mem : Nat → Bool) (p : Nat) (a : TraMgr.Addr) (x : Era σ) : List EEv → Prop
  | [] => True
  | e :: es => (e = .renew → ∀ i, (x.hall.conn i).taken = (x.hall.conn i).tm.casts.length) ∧
    ∀ y, x.step exec absMax mem p a e = some y → NoneLost exec absMax mem p a y es

theorem prompt_prefix (L : Nat) : ∀ (es fs : List Hub.Ev) (s : Hub.Sys σ), Prompt exec L s (es ++ fs) = true → Prompt exec L s es = true := by
  intro es
  induction es with
  | nil => intro fs s _; rfl
  | cons e es ih =>
    intro fs s h
    simp only [List.cons_append, Prompt, Bool.and_eq_true] at h ⊢
    refine ⟨h.1, ?_⟩
    cases hs : s.step exec e with
    | none => rfl
    | some s' => rw [hs] at h; exact ih fs s' h.2

theorem sys_run_append : ∀ (es fs : List Hub.Ev) (s : Hub.Sys σ), s.run exec (es ++ fs) = (s.run exec es).bind fun s => s.run exec fs := by
  intro es
  induction es with
  | nil => intro fs s; rfl
  | cons e es ih =>
    intro fs s
    simp only [List.cons_append, Hub.Sys.run]
    cases s.step exec e with
    | none => rfl
    | some s' => exact ih fs s'

/-- A step changes the device client by one event, or not at all. -/
theorem hall_step_dc {h h' : Hall σ} {e : HEv} (hs : h.step exec mem p a e = some h') :
    (h'.evs = h.evs ∧ h'.dc = h.dc) ∨ ∃ x, h.dc.step exec x = some h'.dc ∧ h'.evs = h.evs ++ [x] := by
  have hdev : ∀ (x : Hub.Ev) (k : Hall σ), h.dev exec x = some k → ∃ x, h.dc.step exec x = some k.dc ∧ k.evs = h.evs ++ [x] := by
    intro x k hk
    unfold Hall.dev at hk
    cases hx : h.dc.step exec x with
    | none => rw [hx] at hk; cases hk
    | some d => rw [hx] at hk; cases hk; exact ⟨x, hx, rfl⟩
  cases e with
  | chunk i bin =>
    simp only [Hall.step] at hs
    split at hs
    · cases hs; exact .inl ⟨rfl, rfl⟩
    · cases hs
  | request i =>
    simp only [Hall.step] at hs
    split at hs
    · split at hs
      · split at hs
        · rename_i k hk
          cases hs
          have := hdev _ k hk
          exact .inr this
        · cases hs
      · cases hs
    · cases hs
  | other pkt pid =>
    simp only [Hall.step] at hs
    split at hs
    · cases hs
    · exact .inr (hdev _ _ hs)
  | toTarget i junk => exact .inr (hdev _ _ hs)
  | toHub i => exact .inr (hdev _ _ hs)
  | timeout => exact .inr (hdev _ _ hs)
  | response i =>
    simp only [Hall.step] at hs
    split at hs
    · split at hs
      · cases hs; exact .inl ⟨rfl, rfl⟩
      · cases hs
    · cases hs

theorem hall_step_run {s0 : Hub.Sys σ} {h h' : Hall σ} {e : HEv} (hr : s0.run exec h.evs = some h.dc) (hs : h.step exec mem p a e = some h') :
    s0.run exec h'.evs = some h'.dc := by
  rcases hall_step_dc hs with ⟨h1, h2⟩ | ⟨x, h1, h2⟩
  · rw [h1, h2]; exact hr
  · rw [h2, sys_run_append, hr]
    simp [Hub.Sys.run, h1]

theorem era_evs_prefix : ∀ (es : List EEv) (x y : Era σ), x.run exec absMax mem p a es = some y → x.hall.evs <+: y.hall.evs := by
  intro es
  induction es with
  | nil => intro x y h; simp only [Era.run, Option.some.injEq] at h; subst h; exact List.prefix_refl _
  | cons e es ih =>
    intro x y h
    simp only [Era.run] at h
    cases hs : x.step exec absMax mem p a e with
    | none => rw [hs] at h; cases h
    | some z =>
      rw [hs] at h
      refine List.IsPrefix.trans ?_ (ih z y h)
      cases e with
      | renew =>
        simp only [Era.step] at hs
        split at hs
        · cases hs; exact List.prefix_refl _
        · cases hs
      | ev e =>
        simp only [Era.step] at hs
        split at hs
        · split at hs
          · rename_i k hk
            cases hs
            rcases hall_step_dc hk with ⟨h1, _⟩ | ⟨x', _, h2⟩
            · show x.hall.evs <+: k.evs
              rw [h1]; exact List.prefix_refl _
            · show x.hall.evs <+: k.evs
              rw [h2]; exact List.prefix_append _ _
          · cases hs
        · cases hs

/-- A new device client is in the state in which the old one was. -/
theorem fresh_same {t0 : Hub.Tgt σ} {lo e : Nat} {s : Hub.Sys σ} (hI : Hub.Inv exec t0 (min t0.depth absMax) s lo e) (hm : s.hub.mode = .normal) (hn : s.hub.nr = 0) :
    TraMgr.fresh s absMax = s := by
  have h1 := hI.nr
  have h2 := hI.loe
  have h3 := hI.ea
  have hlo : lo = s.accepted.length := by omega
  have he : e = s.accepted.length := by omega
  have hq : s.hub.q = [] := by rw [hI.q, hlo, List.drop_length]
  have hnext : s.tgt.expected = s.hub.next := by rw [hI.exp, hI.next, he]
  unfold TraMgr.fresh
  obtain ⟨⟨mode, next, nr, q, maxFl, out⟩, tgt, toT, toH, acc⟩ := s
  simp only at hm hn hq hnext ⊢
  have hx := hI.maxFl
  have hy := hI.depth
  simp only at hx hy
  rw [hm, hn, hq, hnext, hx, hy]

/-- Replacing device clients that have nothing to do is not noticed: what happens is what happens with one device client. -/
theorem era_hall {t0 : Hub.Tgt σ} {L : Nat} (hd : 0 < t0.depth) (hmx : 0 < absMax) (hb : L + min t0.depth absMax + 2 * t0.depth < 65535) (h0 : Hub.RecentHist t0) :
    ∀ (es : List EEv) (x y : Era σ), x.run exec absMax mem p a es = some y → NoneLost exec absMax mem p a x es →
      (Hub.start t0 absMax).run exec x.hall.evs = some x.hall.dc → Prompt exec L (Hub.start t0 absMax) y.hall.evs = true →
      x.hall.run exec mem p a (plain es) = some y.hall := by
  intro es
  induction es with
  | nil => intro x y h _ _ _; simp only [Era.run, Option.some.injEq] at h; subst h; rfl
  | cons e es ih =>
    intro x y h hl hr hp
    have hpre := era_evs_prefix (e :: es) x y h
    simp only [Era.run] at h
    cases hs : x.step exec absMax mem p a e with
    | none => rw [hs] at h; cases h
    | some z =>
      rw [hs] at h
      have hl' := hl.2 z hs
      cases e with
      | renew =>
        have hz : z.hall = x.hall := by
          simp only [Era.step] at hs
          split at hs
          · rename_i hg
            cases hs
            obtain ⟨fs, hfs⟩ := hpre
            rw [← hfs] at hp
            obtain ⟨⟨lo, e, hI⟩, _⟩ := Hub.run_facts hd hmx hb h0 (prompt_prefix L _ _ _ hp) hr
            have hc : (fun i => (x.hall.conn i).lose) = x.hall.conn := by
              funext i
              have := hl.1 rfl i
              unfold TraMgr.Conn.lose
              rw [← this]
            simp only [fresh_same hI hg.1 hg.2, hc]
          · cases hs
        have := ih z y h hl' (by rw [hz]; exact hr) hp
        rw [hz] at this
        exact this
      | ev e =>
        simp only [Era.step] at hs
        split at hs
        · split at hs
          · rename_i k hk
            cases hs
            have := ih _ y h hl' (hall_step_run hr hk) hp
            show Hall.run exec mem p a x.hall (e :: plain es) = _
            simp only [Hall.run, hk]
            exact this
          · cases hs
        · cases hs

/-- **C83, not noticed.** Device clients may end and be replaced whenever they have nothing to do: connections, target and device client are as if there had been one device client for the whole run. -/
theorem C83_replaced_partial {t0 : Hub.Tgt σ} {L : Nat} (hd : 0 < t0.depth) (hmx : 0 < absMax) (hb : L + min t0.depth absMax + 2 * t0.depth < 65535) (h0 : Hub.RecentHist t0)
    {es : List EEv} {x : Era σ} (hrun : (Era.init t0 absMax).run exec absMax mem p a es = some x) (hl : NoneLost exec absMax mem p a (Era.init t0 absMax) es)
    (hp : Prompt exec L (Hub.start t0 absMax) x.hall.evs = true) : (Hall.init t0 absMax).run exec mem p a (plain es) = some x.hall :=
  era_hall hd hmx hb h0 es _ _ hrun hl rfl hp

end

section
variable {ip : W} {port : BitVec 16} {σ : Type}

/-- **C83.** As C80, where the device client may be replaced any number of times when it has nothing to do. `_partial`: nothing is cast to a device client that is about to end
(`C83_violated_lost`), and late datagrams, as for C42. -/
theorem C83_common_partial (clients : Nat → Option Prog) (hok : ∀ i x, clients i = some x → x.Ok ip port)
    (tg : Target σ) {t0 : Hub.Tgt σ} {absMax L p : Nat} (hd : 0 < t0.depth) (hmx : 0 < absMax)
    (hb : L + min t0.depth absMax + 2 * t0.depth < 65535) (h0 : Hub.RecentHist t0) {es : List EEv} {x : Era σ}
    (hrun : (Era.init t0 absMax).run (execBytes tg) absMax (fun i => (clients i).isSome) p (hubAddr ip port) es = some x)
    (hl : NoneLost (execBytes tg) absMax (fun i => (clients i).isSome) p (hubAddr ip port) (Era.init t0 absMax) es)
    (hp : Prompt (execBytes tg) L (Hub.start t0 absMax) x.hall.evs)
    (hto : ∀ i y, clients i = some y → binsOf i (plain es) <+: y.s.tr.u.wire.map fun f => wordBytes f.words)
    (hfrom : ∀ i y, clients i = some y → y.s.tr.u.rx.map wordBytes <+: (x.hall.conn i).tm.sent) :
    ∃ E : List (Nat × Deed Bytes),
      (∀ i y, clients i = some y →
        (E.filter fun e => decide (e.1 = i)).map (·.2) = y.accs.map .acc ∧
        y.shown = (progShow .v2 (y.ops ++ [.dispatch]) (wordsOf i (commonRun .v2 tg (fun m b => (execBytes tg m b).1) E t0.st).1)).map (Option.map ValOut.data)) ∧
      (E.filter fun e => (clients e.1).isNone) =
        ((controlRequests x.hall.evs).filter fun q => (clients q.2).isNone).map (fun q => (q.2, .raw (Hub.bodyOf q))) ∧
      (∃ B : List (List (Nat × Deed Bytes)), E = B.flatten ∧ B.length = (controlRequests x.hall.evs).length ∧
        ∀ (k : Nat) (b : List (Nat × Deed Bytes)) (q : Bytes × Nat), B[k]? = some b → (controlRequests x.hall.evs)[k]? = some q → ∀ e ∈ b, e.1 = q.2) ∧
      (commonRun .v2 tg (fun m b => (execBytes tg m b).1) E t0.st).2 = Hub.final (execBytes tg) t0.st ((controlRequests x.hall.evs).map Hub.bodyOf) :=
  C80_common_partial clients hok tg hd hmx hb h0 (C83_replaced_partial hd hmx hb h0 hrun hl hp) hp hto hfrom

/-- **C83, no addition is lost.** `C80_sum_partial`, where the device client may be replaced. -/
theorem C83_sum_partial (clients : Nat → Option Prog) (ids : List Nat) (hn : ids.Nodup) (hids : ∀ i, (clients i).isSome = true ↔ i ∈ ids)
    (hok : ∀ i x, clients i = some x → x.Ok ip port) (cfg : W → W) {t0 : Hub.Tgt (W → W)} {absMax L p : Nat} (hd : 0 < t0.depth) (hmx : 0 < absMax)
    (hb : L + min t0.depth absMax + 2 * t0.depth < 65535) (h0 : Hub.RecentHist t0) {es : List EEv} {x : Era (W → W)}
    (hrun : (Era.init t0 absMax).run (execBytes (dummyTarget cfg)) absMax (fun i => (clients i).isSome) p (hubAddr ip port) es = some x)
    (hl : NoneLost (execBytes (dummyTarget cfg)) absMax (fun i => (clients i).isSome) p (hubAddr ip port) (Era.init t0 absMax) es)
    (hp : Prompt (execBytes (dummyTarget cfg)) L (Hub.start t0 absMax) x.hall.evs)
    (hto : ∀ i y, clients i = some y → binsOf i (plain es) <+: y.s.tr.u.wire.map fun f => wordBytes f.words)
    (hfrom : ∀ i y, clients i = some y → y.s.tr.u.rx.map wordBytes <+: (x.hall.conn i).tm.sent) (r : W)
    (hmine : ∀ i y, clients i = some y → ∀ a ∈ y.accs, OnlySums r a)
    (hother : ∀ q ∈ controlRequests x.hall.evs, clients q.2 = none → ∀ m : W → W, (execBytes (dummyTarget cfg) m (Hub.bodyOf q)).1 r = m r) :
    (Hub.final (execBytes (dummyTarget cfg)) t0.st ((controlRequests x.hall.evs).map Hub.bodyOf) r).toNat =
      ((t0.st r).toNat + (ids.map fun i => match clients i with | some y => (y.accs.map (addend r)).sum | none => 0).sum) % 2 ^ 32 :=
  C80_sum_partial clients ids hn hids hok cfg hd hmx hb h0 (C83_replaced_partial hd hmx hb h0 hrun hl hp) hp hto hfrom r hmine hother

/-- **C83, numbers are drawn once.** `C80_tickets_partial`, where the device client may be replaced. -/
theorem C83_tickets_partial (clients : Nat → Option Prog) (ids : List Nat) (hn : ids.Nodup) (hids : ∀ i, (clients i).isSome = true ↔ i ∈ ids)
    (hok : ∀ i x, clients i = some x → x.Ok ip port) (cfg : W → W) {t0 : Hub.Tgt (W → W)} {absMax L p : Nat} (hd : 0 < t0.depth) (hmx : 0 < absMax)
    (hb : L + min t0.depth absMax + 2 * t0.depth < 65535) (h0 : Hub.RecentHist t0) {es : List EEv} {x : Era (W → W)}
    (hrun : (Era.init t0 absMax).run (execBytes (dummyTarget cfg)) absMax (fun i => (clients i).isSome) p (hubAddr ip port) es = some x)
    (hl : NoneLost (execBytes (dummyTarget cfg)) absMax (fun i => (clients i).isSome) p (hubAddr ip port) (Era.init t0 absMax) es)
    (hp : Prompt (execBytes (dummyTarget cfg)) L (Hub.start t0 absMax) x.hall.evs)
    (hto : ∀ i y, clients i = some y → binsOf i (plain es) <+: y.s.tr.u.wire.map fun f => wordBytes f.words)
    (hfrom : ∀ i y, clients i = some y → y.s.tr.u.rx.map wordBytes <+: (x.hall.conn i).tm.sent) (r : W)
    (hmine : ∀ i y, clients i = some y → Draws r y.ops)
    (hother : ∀ q ∈ controlRequests x.hall.evs, clients q.2 = none → ∀ m : W → W, (execBytes (dummyTarget cfg) m (Hub.bodyOf q)).1 r = m r) :
    (ids.flatMap fun i => match clients i with | some y => seen y.shown | none => []).Perm
      ((List.range (ids.map fun i => match clients i with | some y => y.accs.length | none => 0).sum).map fun k => t0.st r + BitVec.ofNat 32 k) ∧
    ((ids.map fun i => match clients i with | some y => y.accs.length | none => 0).sum ≤ 2 ^ 32 →
      (ids.flatMap fun i => match clients i with | some y => seen y.shown | none => []).Nodup) :=
  C80_tickets_partial clients ids hn hids hok cfg hd hmx hb h0 (C83_replaced_partial hd hmx hb h0 hrun hl hp) hp hto hfrom r hmine hother

end

/-! ## Non-vacuity -/

section
open Verif.TraMgr
variable {σ : Type} {exec : σ → Bytes → σ × Bytes} {absMax p : Nat} {mem : Nat → Bool} {a : TraMgr.Addr}

/-- Connections that are not there do nothing. -/
theorem hall_step_conn {h h' : Hall σ} {e : HEv} (hs : h.step exec mem p a e = some h') (j : Nat) (hj : mem j = false) : h'.conn j = h.conn j := by
  have hdev : ∀ (x : Hub.Ev) (k : Hall σ), h.dev exec x = some k → k.conn = h.conn := by
    intro x k hk
    unfold Hall.dev at hk
    cases hx : h.dc.step exec x with
    | none => rw [hx] at hk; cases hk
    | some d => rw [hx] at hk; cases hk; rfl
  have hne : ∀ i, mem i = true → j ≠ i := fun i hi hc => by rw [hc, hi] at hj; cases hj
  cases e with
  | chunk i bin =>
    simp only [Hall.step] at hs
    split at hs
    · rename_i hm; cases hs; simp [Hall.set, hne i hm]
    · cases hs
  | request i =>
    simp only [Hall.step] at hs
    split at hs
    · rename_i hm
      split at hs
      · split at hs
        · rename_i k hk
          cases hs
          simp [Hall.set, hne i hm, hdev _ k hk]
        · cases hs
      · cases hs
    · cases hs
  | other pkt pid =>
    simp only [Hall.step] at hs
    split at hs
    · cases hs
    · rw [hdev _ _ hs]
  | toTarget i junk => rw [hdev _ _ hs]
  | toHub i => rw [hdev _ _ hs]
  | timeout => rw [hdev _ _ hs]
  | response i =>
    simp only [Hall.step] at hs
    split at hs
    · rename_i hm
      split at hs
      · cases hs; simp [Hall.set, hne i hm]
      · cases hs
    · cases hs

/-- `NoneLost`, to be computed. -/
def allTaken (ids : List Nat) (exec : σ → Bytes → σ × Bytes) (absMax : Nat) (mem : Nat → Bool) (p : Nat) (a : TraMgr.Addr) (x : Era σ) : List EEv → Bool
  | [] => true
  | e :: es => (e != .renew || ids.all fun i => (x.hall.conn i).taken == (x.hall.conn i).tm.casts.length) &&
    match x.step exec absMax mem p a e with
    | some y => allTaken ids exec absMax mem p a y es
    | none => true

theorem noneLost_of (ids : List Nat) (hids : ∀ i, mem i = true → i ∈ ids) : ∀ (es : List EEv) (x : Era σ), (∀ i, mem i = false → x.hall.conn i = {}) →
    allTaken ids exec absMax mem p a x es = true → NoneLost exec absMax mem p a x es := by
  intro es
  induction es with
  | nil => intro x _ _; trivial
  | cons e es ih =>
    intro x hx h
    simp only [allTaken, Bool.and_eq_true] at h
    refine ⟨?_, ?_⟩
    · intro he i
      cases hm : mem i with
      | false => rw [hx i hm]; rfl
      | true =>
        have := h.1
        subst he
        simp only [bne_self_eq_false, Bool.false_or, List.all_eq_true, beq_iff_eq] at this
        exact this i (hids i hm)
    · intro y hy
      have h2 := h.2
      rw [hy] at h2
      refine ih y ?_ h2
      intro i hm
      cases e with
      | renew =>
        simp only [Era.step] at hy
        split at hy
        · cases hy; simp only [hx i hm]; rfl
        · cases hy
      | ev e =>
        simp only [Era.step] at hy
        split at hy
        · split at hy
          · rename_i k hk
            cases hy
            exact (hall_step_conn hk i hm).trans (hx i hm)
          · cases hy
        · cases hy

/-- The clients of C80 and the third one; the device client is replaced between. -/
def eraEvs : List EEv := [.ev (.chunk 8 (wordBytes (mkFrame (chunkOf oneOps)).words)), .ev (.request 8), .ev (.toTarget 0 (List.replicate 48 0)), .ev (.toHub 0), .renew, .ev (.response 8),
  .ev (.chunk 7 (wordBytes (mkFrame (chunkOf twoOps)).words)), .ev (.request 7), .ev (.toTarget 1 (List.replicate 48 0)), .ev (.toHub 1), .ev (.response 7),
  .ev (.request 7), .ev (.toTarget 2 (List.replicate 48 0)), .ev (.toHub 2), .renew, .ev (.other (wordBytes [0x200000F0, 0x2000011F, 2, 0x77]) 9), .ev (.response 7),
  .ev (.toTarget 3 (List.replicate 48 0)), .ev (.toHub 3)]

def eraTwo : List W := [0x14000000, 0x0100000A, 0x51C3, 0x200000F0, 0x20000150, 6, 0x14000000, 0x0100000A, 0x51C3, 0x200000F0, 0x20010150, 7]
def eraOne : List W := [0x14000000, 0x0100000A, 0x51C3, 0x200000F0, 0x20000150, 5]

def eraPlan2 : List (List TEv × Bool) := [([], true), ([], true), ([.sendDone true, .recvHdr (some 12), .recvBody (some eraTwo), .recvEnd], true)]
def eraPlan1 : List (List TEv × Bool) := [([], true), ([], true), ([.sendDone true, .recvHdr (some 6), .recvBody (some eraOne), .recvEnd], true)]

/-- The three see the register at different times, and there are three device clients one after the other; the hypotheses of all theorems of this file are met, and the two users see 6, 7 and 5. -/
example : ∃ (clients : Nat → Option Prog) (x : Era (W → W)), (∀ i x, clients i = some x → x.Ok 0x0100000A 0x51C3) ∧
    (∀ i, (clients i).isSome = true ↔ i ∈ [7, 8]) ∧
    (Era.init hubTgt 2).run (execBytes (dummyTarget fun _ => 0)) 2 (fun i => (clients i).isSome) 3 (hubAddr 0x0100000A 0x51C3) eraEvs = some x ∧ x.gen = 2 ∧
    NoneLost (execBytes (dummyTarget fun _ => 0)) 2 (fun i => (clients i).isSome) 3 (hubAddr 0x0100000A 0x51C3) (Era.init hubTgt 2) eraEvs ∧
    Prompt (execBytes (dummyTarget fun _ => 0)) 100 (Hub.start hubTgt 2) x.hall.evs = true ∧
    (∀ i y, clients i = some y → binsOf i (plain eraEvs) <+: y.s.tr.u.wire.map fun f => wordBytes f.words) ∧
    (∀ i y, clients i = some y → y.s.tr.u.rx.map wordBytes <+: (x.hall.conn i).tm.sent) ∧
    (∀ i x, clients i = some x → Draws 5 x.ops) ∧ (∀ i x, clients i = some x → ∀ a ∈ x.accs, OnlySums 5 a) ∧
    (∀ q ∈ controlRequests x.hall.evs, clients q.2 = none → ∀ m : W → W, (execBytes (dummyTarget fun _ => 0) m (Hub.bodyOf q)).1 5 = m 5) ∧
    (clients 7).map (fun x => seen x.shown) = some [6, 7] ∧ (clients 8).map (fun x => seen x.shown) = some [5] := by
  have h1 : (drawTcp twoOps eraPlan2).map (fun p => (p.1.all (fun r => match r with | .ok _ => true | .exc _ => false),
      p.2.tr.u.wire.map (fun f => wordBytes f.words), p.2.tr.u.rx, seen (p.1.map (resShow true p.2.tr.u.heap)))) = some (true, binsOf 7 (plain eraEvs), [eraTwo], [6, 7]) := by decide +kernel
  have h2 : (drawTcp oneOps eraPlan1).map (fun p => (p.1.all (fun r => match r with | .ok _ => true | .exc _ => false),
      p.2.tr.u.wire.map (fun f => wordBytes f.words), p.2.tr.u.rx, seen (p.1.map (resShow true p.2.tr.u.heap)))) = some (true, binsOf 8 (plain eraEvs), [eraOne], [5]) := by decide +kernel
  have h3 : ((Era.init hubTgt 2).run (execBytes (dummyTarget fun _ => 0)) 2 (fun i => i == 7 || i == 8) 3 (hubAddr 0x0100000A 0x51C3) eraEvs).map (fun x =>
      (Prompt (execBytes (dummyTarget fun _ => 0)) 100 (Hub.start hubTgt 2) x.hall.evs, (x.hall.conn 7).tm.sent, (x.hall.conn 8).tm.sent, x.gen,
        ((controlRequests x.hall.evs).filter fun q => !(q.2 == 7 || q.2 == 8)) == [(wordBytes [0x200000F0, 0x2000011F, 2, 0x77], 9)])) =
      some (true, [wordBytes eraTwo], [wordBytes eraOne], 2, true) := by decide +kernel
  obtain ⟨⟨rs, s⟩, hs, e1⟩ := Option.map_eq_some_iff.1 h1
  obtain ⟨⟨rs', s'⟩, hs', e2⟩ := Option.map_eq_some_iff.1 h2
  obtain ⟨x, hh, e3⟩ := Option.map_eq_some_iff.1 h3
  simp only [Prod.mk.injEq] at e1 e2 e3
  obtain ⟨a1, a2, a3, a4⟩ := e1
  obtain ⟨b1, b2, b3, b4⟩ := e2
  obtain ⟨c1, c2, c3, c5, c4⟩ := e3
  let clients : Nat → Option Prog := fun i => if i = 7 then some ⟨hubSmall, 2, 16, twoOps, eraPlan2, rs, s⟩ else
    if i = 8 then some ⟨hubSmall, 2, 16, oneOps, eraPlan1, rs', s'⟩ else none
  have hcase : ∀ i x, clients i = some x → (i = 7 ∧ x = ⟨hubSmall, 2, 16, twoOps, eraPlan2, rs, s⟩) ∨ (i = 8 ∧ x = ⟨hubSmall, 2, 16, oneOps, eraPlan1, rs', s'⟩) := by
    intro i y hx
    by_cases h7 : i = 7
    · simp only [clients, if_pos h7, Option.some.injEq] at hx; exact .inl ⟨h7, hx.symm⟩
    · by_cases h8 : i = 8
      · simp only [clients, if_neg h7, if_pos h8, Option.some.injEq] at hx; exact .inr ⟨h8, hx.symm⟩
      · simp [clients, h7, h8] at hx
  have hmem : (fun i => (clients i).isSome) = fun i => i == 7 || i == 8 := by
    funext i
    by_cases h7 : i = 7
    · subst h7; rfl
    · by_cases h8 : i = 8
      · subst h8; rfl
      · simp [clients, h7, h8]
  have hl : allTaken [7, 8] (execBytes (dummyTarget fun _ => 0)) 2 (fun i => i == 7 || i == 8) 3 (hubAddr 0x0100000A 0x51C3) (Era.init hubTgt 2) eraEvs = true := by decide +kernel
  refine ⟨clients, x, ?_, ?_, by rw [hmem]; exact hh, c5, by rw [hmem]; exact noneLost_of [7, 8] (by simp) _ _ (fun _ _ => rfl) hl, c1, ?_, ?_, ?_, ?_, ?_, congrArg some a4, congrArg some b4⟩
  · intro i y hx
    rcases hcase i y hx with ⟨_, rfl⟩ | ⟨_, rfl⟩
    · exact draw_prog _ (by simp [twoOps, Op.ok, Op.maskOK]) _ _ _ hs a1
    · exact draw_prog _ (by simp [oneOps, Op.ok, Op.maskOK]) _ _ _ hs' b1
  · intro i
    rw [show (clients i).isSome = (i == 7 || i == 8) from congrFun hmem i]
    simp
  · intro i y hx
    rcases hcase i y hx with ⟨rfl, rfl⟩ | ⟨rfl, rfl⟩
    · simp only [a2]; exact List.prefix_refl _
    · simp only [b2]; exact List.prefix_refl _
  · intro i y hx
    rcases hcase i y hx with ⟨rfl, rfl⟩ | ⟨rfl, rfl⟩
    · simp only [a3, c2]; exact List.prefix_refl _
    · simp only [b3, c3]; exact List.prefix_refl _
  · intro i y hx
    rcases hcase i y hx with ⟨rfl, rfl⟩ | ⟨rfl, rfl⟩
    · intro op hop
      simp [twoOps] at hop
      exact .inr ⟨5, hop, by decide⟩
    · intro op hop
      simp [oneOps] at hop
      exact .inr ⟨5, hop, by decide⟩
  · intro i y hx a ha
    rcases hcase i y hx with ⟨rfl, rfl⟩ | ⟨rfl, rfl⟩
    · simp [Prog.accs, twoOps, opAccs] at ha
      exact fun _ => .inr (.inr ⟨5, 1, ha⟩)
    · simp [Prog.accs, oneOps, opAccs] at ha
      exact fun _ => .inr (.inr ⟨5, 1, ha⟩)
  · intro q hq hc m
    have hm : q ∈ (controlRequests x.hall.evs).filter fun q => !(q.2 == 7 || q.2 == 8) := by
      refine List.mem_filter.2 ⟨hq, ?_⟩
      have := congrFun hmem q.2
      simp only [hc] at this
      simp [← this]
    rw [eq_of_beq c4] at hm
    rw [List.mem_singleton.1 hm]
    rfl

/-! ### Each device client gets the datagrams that answer its own -/

/-- The lists of senders and of addressees are as long as those of the datagrams, and no sender is from the future. -/
structure EraOk (x : Era σ) : Prop where
  by_ : x.by_.length = x.hall.dc.toT.length
  to : x.to.length = x.hall.dc.toH.length
  le : ∀ g ∈ x.by_, g ≤ x.gen

theorem sys_step_grows {s s' : Hub.Sys σ} {e : Hub.Ev} (h : s.step exec e = some s') : s.toT.length ≤ s'.toT.length ∧ s.toH.length ≤ s'.toH.length := by
  cases e with
  | request pkt pid => simp only [Hub.Sys.step] at h; split at h <;> cases h; simp
  | toTarget i junk => simp only [Hub.Sys.step] at h; split at h <;> try cases h
                       split at h <;> cases h; simp
  | toHub i => simp only [Hub.Sys.step] at h; split at h <;> try cases h
               split at h <;> cases h; simp
  | timeout => simp only [Hub.Sys.step] at h; split at h <;> cases h; simp

theorem hall_step_grows {h h' : Hall σ} {e : HEv} (hs : h.step exec mem p a e = some h') : h.dc.toT.length ≤ h'.dc.toT.length ∧ h.dc.toH.length ≤ h'.dc.toH.length := by
  rcases hall_step_dc hs with ⟨_, e⟩ | ⟨x, e, _⟩
  · rw [e]; exact ⟨Nat.le_refl _, Nat.le_refl _⟩
  · exact sys_step_grows e

theorem eraOk_step {x y : Era σ} (hx : EraOk x) {e : EEv} (h : x.step exec absMax mem p a e = some y) : EraOk y ∧ x.gen ≤ y.gen ∧ x.to <+: y.to ∧ x.by_ <+: y.by_ := by
  cases e with
  | renew =>
    simp only [Era.step] at h
    split at h
    · cases h
      exact ⟨⟨hx.by_, hx.to, fun g hg => Nat.le_succ_of_le (hx.le g hg)⟩, Nat.le_succ _, List.prefix_refl _, List.prefix_refl _⟩
    · cases h
  | ev e =>
    simp only [Era.step] at h
    split at h
    · cases hs : x.hall.step exec mem p a e with
      | none => rw [hs] at h; cases h
      | some k =>
        rw [hs] at h
        cases h
        obtain ⟨g1, g2⟩ := hall_step_grows hs
        have b := hx.by_
        have t := hx.to
        refine ⟨⟨?_, ?_, ?_⟩, Nat.le_refl _, List.prefix_append _ _, List.prefix_append _ _⟩
        · simp only [List.length_append, List.length_replicate]; omega
        · simp only [List.length_append, List.length_replicate]; omega
        · intro g hg
          rcases List.mem_append.1 hg with hg | hg
          · exact hx.le g hg
          · exact Nat.le_of_eq (List.eq_of_mem_replicate hg)
    · cases h

theorem eraOk_run : ∀ (es : List EEv) (x y : Era σ), EraOk x → x.run exec absMax mem p a es = some y → EraOk y ∧ x.gen ≤ y.gen ∧ x.to <+: y.to ∧ x.by_ <+: y.by_ := by
  intro es
  induction es with
  | nil => intro x y hx h; cases h; exact ⟨hx, Nat.le_refl _, List.prefix_refl _, List.prefix_refl _⟩
  | cons e es ih =>
    intro x y hx h
    simp only [Era.run] at h
    cases hs : x.step exec absMax mem p a e with
    | none => rw [hs] at h; cases h
    | some z =>
      rw [hs] at h
      obtain ⟨h1, h2, h3, h4⟩ := eraOk_step hx hs
      obtain ⟨k1, k2, k3, k4⟩ := ih z y h1 h
      exact ⟨k1, Nat.le_trans h2 k2, h3.trans k3, h4.trans k4⟩

theorem eraOk_init (t : Hub.Tgt σ) : EraOk (Era.init t absMax) := ⟨rfl, rfl, fun _ hg => by cases hg⟩

/-- What the target sends in reply to a datagram that was on its way (the `i`th) when a device client ended never reaches a later device client. -/
theorem C83_own (t : Hub.Tgt σ) {es fs gs : List EEv} {w x y z : Era σ} {i j : Nat} {junk : Bytes} (hw : (Era.init t absMax).run exec absMax mem p a es = some w)
    (hi : i < w.hall.dc.toT.length) (hx : w.run exec absMax mem p a (.renew :: fs) = some x) (hy : x.step exec absMax mem p a (.ev (.toTarget i junk)) = some y)
    (hj : x.hall.dc.toH.length ≤ j) (hj' : j < y.hall.dc.toH.length) (hz : y.run exec absMax mem p a gs = some z) : z.step exec absMax mem p a (.ev (.toHub j)) = none := by
  obtain ⟨ow, _, _, _⟩ := eraOk_run es _ _ (eraOk_init t) hw
  obtain ⟨ox, _, _, bx⟩ := eraOk_run _ _ _ ow hx
  obtain ⟨oy, gy, _, _⟩ := eraOk_step ox hy
  obtain ⟨oz, gz, tz, _⟩ := eraOk_run _ _ _ oy hz
  -- the device client is a later one
  have hlt : w.gen < x.gen := by
    simp only [Era.run] at hx
    cases hs : w.step exec absMax mem p a .renew with
    | none => rw [hs] at hx; cases hx
    | some v =>
      rw [hs] at hx
      have e : v.gen = w.gen + 1 := by
        simp only [Era.step] at hs
        split at hs <;> cases hs
        rfl
      have := (eraOk_run fs v x (eraOk_step ow hs).1 hx).2.1
      omega
  -- the sender of the datagram is an earlier one
  have hib : i < w.by_.length := by rw [ow.by_]; exact hi
  have hbi : x.by_[i]? = some w.by_[i] := by
    obtain ⟨r, hr⟩ := bx
    rw [← hr, List.getElem?_append_left hib, List.getElem?_eq_getElem hib]
  have hle : w.by_[i] ≤ w.gen := ow.le _ (List.getElem_mem hib)
  -- so is the addressee of the reply
  have hto : y.to[j]? = some w.by_[i] := by
    simp only [Era.step] at hy
    split at hy
    · cases hs : x.hall.step exec mem p a (.toTarget i junk) with
      | none => rw [hs] at hy; cases hy
      | some k =>
        rw [hs] at hy
        cases hy
        have t := ox.to
        simp only at hj' ⊢
        rw [List.getElem?_append_right (by omega), List.getElem?_replicate, if_pos (by omega)]
        simp only [Era.dest, hbi, Option.getD_some]
    · cases hy
  have hzj : z.to[j]? = some w.by_[i] := by
    obtain ⟨r, hr⟩ := tz
    have hlen : j < y.to.length := by rw [oy.to]; exact hj'
    rw [← hr, List.getElem?_append_left hlen, hto]
  have ho : z.open_ (.toHub j) = false := by
    simp only [Era.open_, hzj, beq_eq_false_iff_ne, ne_eq, Option.some.injEq]
    omega
  simp [Era.step, ho]

/-- Non-vacuity: the status request of a device client arrives at the target a second time when there is a new device client. There is a fourth datagram from the target then; the new device client,
which could take a status reply, does not get it. -/
example : let J := List.replicate 48 0
    let es : List EEv := [.ev (.other (wordBytes [0x200000F0, 0x2000011F, 2, 0x77]) 9), .ev (.toTarget 0 J), .ev .timeout, .ev (.toTarget 1 J), .ev (.toHub 1), .ev (.toTarget 2 J), .ev (.toHub 2)]
    let go (es : List EEv) := ((Era.init hubTgt 2).run (execBytes (dummyTarget fun _ => 0)) 2 (fun i => i == 8) 3 (hubAddr 0x0100000A 0x51C3) es).map fun x =>
      (x.gen, x.hall.dc.toT.length, x.hall.dc.toH.length)
    go es = some (0, 3, 3) ∧ go (es ++ [.renew]) = some (1, 3, 3) ∧ go (es ++ [.renew, .ev (.toTarget 1 J)]) = some (1, 3, 4) ∧
      go (es ++ [.renew, .ev (.toTarget 1 J), .ev (.toHub 3)]) = none := by decide +kernel

/-- A request that the device client has not taken when it ends is lost: everything is quiet - the mailboxes are empty, nothing is in flight, no datagram is on its way - and the client waits forever. -/
theorem C83_violated_lost : ∃ (es : List EEv) (x : Era (W → W)),
    (Era.init hubTgt 2).run (execBytes (dummyTarget fun _ => 0)) 2 (fun i => i == 8) 3 (hubAddr 0x0100000A 0x51C3) es = some x ∧
    binsOf 8 (plain es) = [wordBytes (mkFrame (chunkOf oneOps)).words] ∧
    (x.hall.conn 8).tm.casts.length = 1 ∧ (x.hall.conn 8).tm.sent = [] ∧
    (∀ i bin, x.step (execBytes (dummyTarget fun _ => 0)) 2 (fun i => i == 8) 3 (hubAddr 0x0100000A 0x51C3) (.ev (.request i)) = none ∧
      x.step (execBytes (dummyTarget fun _ => 0)) 2 (fun i => i == 8) 3 (hubAddr 0x0100000A 0x51C3) (.ev (.response i)) = none ∧
      x.step (execBytes (dummyTarget fun _ => 0)) 2 (fun i => i == 8) 3 (hubAddr 0x0100000A 0x51C3) (.ev (.toTarget i bin)) = none ∧
      x.step (execBytes (dummyTarget fun _ => 0)) 2 (fun i => i == 8) 3 (hubAddr 0x0100000A 0x51C3) (.ev (.toHub i)) = none) := by
  let es : List EEv := [.ev (.chunk 8 (wordBytes (mkFrame (chunkOf oneOps)).words)), .renew]
  have h : ((Era.init hubTgt 2).run (execBytes (dummyTarget fun _ => 0)) 2 (fun i => i == 8) 3 (hubAddr 0x0100000A 0x51C3) es).map (fun x =>
      [(x.hall.conn 8).tm.casts.length, (x.hall.conn 8).tm.sent.length, (x.hall.conn 8).taken, x.hall.dc.toT.length, x.to.length, x.hall.dc.hub.out.length]) = some [1, 0, 1, 0, 0, 0] := by
    decide +kernel
  obtain ⟨x, hx, e⟩ := Option.map_eq_some_iff.1 h
  simp only [List.cons.injEq, and_true] at e
  obtain ⟨a1, a2, a3, a5, a6, a7⟩ := e
  have hout : x.hall.dc.hub.out = [] := List.length_eq_zero_iff.1 a7
  have hT : x.hall.dc.toT = [] := List.length_eq_zero_iff.1 a5
  refine ⟨es, x, hx, by decide +kernel, a1, List.length_eq_zero_iff.1 a2, ?_⟩
  intro i bin
  refine ⟨?_, ?_, ?_, ?_⟩
  · by_cases hi : i = 8
    · subst hi
      have : (x.hall.conn 8).tm.casts[(x.hall.conn 8).taken]? = none := List.getElem?_eq_none (by omega)
      simp [Era.step, Era.open_, Hall.step, this]
    · simp [Era.step, Era.open_, Hall.step, hi]
  · by_cases hi : i = 8
    · subst hi
      simp [Era.step, Era.open_, Hall.step, hout]
    · simp [Era.step, Era.open_, Hall.step, hi]
  · simp [Era.step, Era.open_, Hall.step, Hall.dev, Hub.Sys.step, hT]
  · simp [Era.step, Era.open_, List.length_eq_zero_iff.1 a6]

end

end Verif
