import Verif.Model.Inspector
import Verif.Spec.Inspect
import Verif.Lemmas.Target
import Verif.Props.C65
/-! The inspectors follow the parser of the specification. -/

set_option autoImplicit false
set_option linter.unusedSimpArgs false

namespace Verif.Insp
open Spec

variable {σ : Type}

/-- The transaction that a call stands for. -/
def HCall.asTxn : HCall → Option (Nat × Txn)
  | .txn _ h .bot => some (h.id.toNat, .bot)
  | .txn _ h (.niRead a) => some (h.id.toNat, .read false a h.wc.toNat)
  | .txn _ h (.read a) => some (h.id.toNat, .read true a h.wc.toNat)
  | .txn _ h (.cfgRead a) => some (h.id.toNat, .cfgRead a h.wc.toNat)
  | .txn _ h (.niWrite a ds) => if h.wc.toNat = ds.length then some (h.id.toNat, .write false a ds) else none
  | .txn _ h (.write a ds) => if h.wc.toNat = ds.length then some (h.id.toNat, .write true a ds) else none
  | .txn _ h (.rmwSum a x) => some (h.id.toNat, .rmwSum a x)
  | .txn _ h (.rmwBits a x o) => some (h.id.toNat, .rmwBits a x o)
  | _ => none

/-- The words that a call accounts for. -/
def HCall.words : HCall → List W
  | .txn w _ .bot => [w]
  | .txn w _ (.niRead a) => [w, a]
  | .txn w _ (.read a) => [w, a]
  | .txn w _ (.cfgRead a) => [w, a]
  | .txn w _ (.niWrite a ds) => w :: a :: ds
  | .txn w _ (.write a ds) => w :: a :: ds
  | .txn w _ (.rmwSum a x) => [w, a, x]
  | .txn w _ (.rmwBits a x o) => [w, a, x, o]
  | .control p => [p]
  | _ => []

/-- The header word of a call is the header that was decoded, with the info code of requests. -/
def HCall.good (v : Ver) : HCall → Prop
  | .txn w h _ => extractHeader v w = some h ∧ h.info = reqInfo v
  | _ => False

theorem hostBody_ok {h : Hdr} {t rest : List W} {txn : Txn} (w : W) (hp : parseBody h.wc.toNat t h.ty = some (txn, rest)) :
    ∃ r, hostBody h t = some (some (r, rest)) ∧ (HCall.txn w h r).asTxn = some (h.id.toNat, txn) ∧
      (HCall.txn w h r).words ++ rest = w :: t := by
  obtain ⟨ty, wc, id, info⟩ := h
  simp only at hp ⊢
  cases ty <;> simp only [parseBody] at hp
  case bot => cases hp; exact ⟨_, rfl, rfl, rfl⟩
  case read => split at hp <;> cases hp; exact ⟨_, rfl, rfl, rfl⟩
  case niRead => split at hp <;> cases hp; exact ⟨_, rfl, rfl, rfl⟩
  case configRead => split at hp <;> cases hp; exact ⟨_, rfl, rfl, rfl⟩
  case write =>
    split at hp
    · split at hp
      · rename_i a t hle
        cases hp
        refine ⟨.write a (t.take wc.toNat), by simp [hostBody, hle], ?_, by simp [HCall.words]⟩
        simp only [HCall.asTxn]
        rw [if_pos (by simp; omega)]
      · cases hp
    · cases hp
  case niWrite =>
    split at hp
    · split at hp
      · rename_i a t hle
        cases hp
        refine ⟨.niWrite a (t.take wc.toNat), by simp [hostBody, hle], ?_, by simp [HCall.words]⟩
        simp only [HCall.asTxn]
        rw [if_pos (by simp; omega)]
      · cases hp
    · cases hp
  case rmwBits =>
    split at hp
    · split at hp
      · cases hp; exact ⟨_, rfl, rfl, rfl⟩
      · cases hp
    · cases hp
  case rmwSum =>
    split at hp
    · split at hp
      · cases hp; exact ⟨_, rfl, rfl, rfl⟩
      · cases hp
    · cases hp
  case rai => cases hp

/-- One request, as `ExtractHeader` sees it. -/
theorem parseTxn_hdr {v : Ver} {w : W} {ws rest : List W} {id : Nat} {txn : Txn} (h : parseTxn v (w :: ws) = some (id, txn, rest)) :
    ∃ d, extractHeader v w = some d ∧ d.info = reqInfo v ∧ d.id.toNat = id ∧ parseBody d.wc.toNat ws d.ty = some (txn, rest) := by
  rw [parseTxn] at h
  split at h
  · rename_i hhd
    split at h
    · cases h
    · rename_i ty hty
      simp only [Option.map_eq_some_iff] at h
      obtain ⟨⟨tx, rs⟩, hb, hb2⟩ := h
      simp only [Prod.mk.injEq] at hb2
      obtain ⟨rfl, rfl, rfl⟩ := hb2
      have hwc := (tyOf_iff _ _ _).1 hty
      have hwcn : (BitVec.ofNat 32 (field w 8 (wcBits v))).toNat = field w 8 (wcBits v) := by
        simp only [BitVec.toNat_ofNat, field]; cases v <;> simp only [wcBits] <;> omega
      have hidn : (BitVec.ofNat 32 (field w (28 - idBits v) (idBits v))).toNat = field w (28 - idBits v) (idBits v) := by
        simp only [BitVec.toNat_ofNat, field]; cases v <;> simp only [idBits] <;> omega
      refine ⟨⟨ty, BitVec.ofNat 32 (field w 8 (wcBits v)), BitVec.ofNat 32 (field w (28 - idBits v) (idBits v)), reqInfo v⟩, ?_, rfl, hidn, ?_⟩
      · rw [extractHeader_iff]
        exact ⟨hhd.1, hwc, hwcn, hidn, (reqInfo_field v w hhd.2).symm⟩
      · rw [hwcn]; exact hb
  · cases h

/-- The loop on well-formed requests, for any virtual functions. -/
theorem hostRun_ok (v : Ver) (fuel : Nat) (ws : List W) (txns : List (Nat × Txn)) (hp : parseTxns v fuel ws = some txns) (hne : ws ≠ []) :
    ∃ cs : List HCall, cs.map HCall.asTxn = txns.map some ∧ cs.flatMap HCall.words = ws ∧ (∀ c ∈ cs, c.good v) ∧
      ∀ (σ : Type) (cb : σ → HCall → σ × Bool) (cont : Bool) (n : Nat) (s : σ), ws.length ≤ n →
        hostRun v cb cont n false ws s = .ret true (cs.foldl (fun s c => (cb s c).1) s) [] := by
  induction fuel generalizing ws txns with
  | zero =>
    cases ws with
    | nil => exact absurd rfl hne
    | cons w ws => cases hp
  | succ fuel ih =>
    cases ws with
    | nil => exact absurd rfl hne
    | cons w ws =>
      rw [parseTxns] at hp
      cases h1 : parseTxn v (w :: ws) with
      | none => rw [h1] at hp; cases hp
      | some x =>
        obtain ⟨id, txn, rest⟩ := x
        rw [h1] at hp
        simp only [Option.map_eq_some_iff] at hp
        obtain ⟨l, hl, rfl⟩ := hp
        obtain ⟨d, d1, d2, d3, d4⟩ := parseTxn_hdr h1
        obtain ⟨r, r1, r2, r3⟩ := hostBody_ok w d4
        rw [d3] at r2
        by_cases hr : rest = []
        · subst hr
          rw [parseTxns_nil hl]
          refine ⟨[.txn w d r], by simp [r2], by simpa using r3, ?_, ?_⟩
          · intro c hc
            simp only [List.mem_singleton] at hc
            subst hc
            exact ⟨d1, d2⟩
          · intro σ cb cont n s hn
            cases n with
            | zero => simp at hn
            | succ n =>
              rw [hostRun, d1]
              simp only [d2, ne_eq, not_true_eq_false, if_false, r1, if_true]
              rfl
        · obtain ⟨cs, c1, c2, c3, c4⟩ := ih rest l hl hr
          refine ⟨.txn w d r :: cs, by simp [r2, c1], by simpa [c2] using r3, ?_, ?_⟩
          · intro c hc
            rw [List.mem_cons] at hc
            rcases hc with rfl | hc
            · exact ⟨d1, d2⟩
            · exact c3 c hc
          · intro σ cb cont n s hn
            cases n with
            | zero => simp at hn
            | succ n =>
              rw [hostRun, d1]
              simp only [d2, ne_eq, not_true_eq_false, if_false, r1, if_neg hr]
              have hlen : rest.length ≤ n := by
                have := congrArg List.length r3
                simp only [List.length_append, List.length_cons] at this hn
                have hw : 1 ≤ (HCall.txn w d r).words.length := by cases r <;> simp [HCall.words]
                omega
              rw [c4 σ cb cont n _ hlen]
              rfl

/-- The same for whole packets; `pre`: the calls for the packet header. -/
theorem hostAnalyze_ok (v : Ver) (ws : List W) (pid : Nat) (txns : List (Nat × Txn)) (hp : parsePacket v ws = some (pid, txns)) (hne : txns ≠ []) :
    ∃ (pre : List W) (cs : List HCall), (match v with | .v1 => pre = [] | .v2 => ∃ p, pre = [p] ∧ field p 8 16 = pid ∧ p &&& 0xF#32 = 0#32) ∧
      cs.map HCall.asTxn = txns.map some ∧ pre ++ cs.flatMap HCall.words = ws ∧ (∀ c ∈ cs, c.good v) ∧
      ∀ (σ : Type) (cb : σ → HCall → σ × Bool) (cont : Bool) (s : σ), (∀ p, pre = [p] → (cb s (.control p)).2 = true) →
        hostAnalyze v cb cont ws s = .ret true ((pre.map HCall.control ++ cs).foldl (fun s c => (cb s c).1) s) [] := by
  cases v with
  | v1 =>
    simp only [parsePacket, Option.map_eq_some_iff, Prod.mk.injEq] at hp
    obtain ⟨l, hl, _, rfl⟩ := hp
    have hws : ws ≠ [] := by rintro rfl; exact hne (parseTxns_nil hl)
    obtain ⟨cs, c1, c2, c3, c4⟩ := hostRun_ok .v1 _ ws l hl hws
    refine ⟨[], cs, rfl, c1, c2, c3, ?_⟩
    intro σ cb cont s _
    rw [hostAnalyze, hostRun]
    rw [c4 σ cb cont _ s (by omega)]
    rfl
  | v2 =>
    cases ws with
    | nil => cases hp
    | cons p t =>
      simp only [parsePacket] at hp
      split at hp
      · rename_i hh
        simp only [Option.map_eq_some_iff, Prod.mk.injEq] at hp
        obtain ⟨l, hl, h0, rfl⟩ := hp
        have hws : t ≠ [] := by rintro rfl; exact hne (parseTxns_nil hl)
        obtain ⟨cs, c1, c2, c3, c4⟩ := hostRun_ok .v2 _ t l hl hws
        refine ⟨[p], cs, ⟨p, rfl, h0, pkt_type p hh.2.2.2⟩, c1, by simp [c2], c3, ?_⟩
        intro σ cb cont s hc
        rw [hostAnalyze, hostRun]
        simp only [pkt_type p hh.2.2.2, if_true, hc p rfl]
        rw [if_neg (by simp), c4 σ cb cont _ _ (by simp; omega)]
        rfl
      · cases hp

/-! ## Termination -/

theorem hostBody_shorter {h : Hdr} {t t' : List W} {r : Req} (hb : hostBody h t = some (some (r, t'))) : t'.length ≤ t.length := by
  unfold hostBody at hb
  cases h.ty <;> simp only at hb
  all_goals repeat' split at hb
  all_goals first
    | (cases hb; done)
    | (cases hb; exact Nat.le_refl _)
    | (cases hb; simp; done)
    | (cases hb; simp; omega)

theorem hostRun_ends (v : Ver) (cb : σ → HCall → σ × Bool) (cont : Bool) (n : Nat) :
    (∀ ws s, 2 * ws.length + 2 ≤ n → hostRun v cb cont n false ws s ≠ .spins) ∧
    (∀ ws s, (match v with | .v1 => 2 * ws.length + 3 | .v2 => 2 * ws.length + 1) ≤ n → hostRun v cb cont n true ws s ≠ .spins) := by
  induction n with
  | zero =>
    refine ⟨fun ws s h => absurd h (by omega), fun ws s h => ?_⟩
    cases v <;> simp at h
  | succ n ih =>
    constructor
    · intro ws s hn
      cases ws with
      | nil => rw [hostRun]; simp
      | cons w t =>
        rw [hostRun]
        simp only [List.length_cons] at hn
        cases he : extractHeader v w with
        | none =>
          cases v with
          | v1 => simp
          | v2 =>
            simp only
            cases cont with
            | false => simp
            | true => rw [if_pos rfl]; exact ih.2 _ _ (by simp; omega)
        | some h =>
          simp only
          split
          · simp
          · cases hb : hostBody h t with
            | none => simp
            | some o =>
              cases o with
              | none => simp
              | some q =>
                obtain ⟨r, t'⟩ := q
                have := hostBody_shorter hb
                simp only
                split
                · simp
                · exact ih.1 _ _ (by omega)
    · intro ws s hn
      rw [hostRun.eq_def]
      simp only
      cases v with
      | v1 => exact ih.1 _ _ (by simp at hn; omega)
      | v2 =>
        simp only at hn ⊢
        cases ws with
        | nil => simp
        | cons p t =>
          simp only [List.length_cons] at hn ⊢
          split
          · split
            · simp
            · exact ih.1 _ _ (by omega)
          · split
            · simp
            · split <;> simp

theorem targetBody_shorter {h : Hdr} {t t' ds : List W} (hb : targetBody h t = some (some (ds, t'))) : t'.length ≤ t.length := by
  unfold targetBody at hb
  cases h.ty <;> simp only at hb
  all_goals try (simp only [Option.some.injEq] at hb)
  all_goals repeat' split at hb
  all_goals first
    | (cases hb; done)
    | (cases hb; simp; done)

theorem targetRun_ends (v : Ver) (cb : σ → TCall → σ × Bool) (cont : Bool) (n : Nat) :
    (∀ ws s, 2 * ws.length + 2 ≤ n → targetRun v cb cont n false ws s ≠ .spins) ∧
    (∀ ws s, (match v with | .v1 => 2 * ws.length + 3 | .v2 => 2 * ws.length + 1) ≤ n → targetRun v cb cont n true ws s ≠ .spins) := by
  induction n with
  | zero =>
    refine ⟨fun ws s h => absurd h (by omega), fun ws s h => ?_⟩
    cases v <;> simp at h
  | succ n ih =>
    constructor
    · intro ws s hn
      cases ws with
      | nil => rw [targetRun]; simp
      | cons w t =>
        rw [targetRun]
        simp only [List.length_cons] at hn
        cases he : extractHeader v w with
        | none =>
          cases v with
          | v1 => simp
          | v2 =>
            simp only
            cases cont with
            | false => simp
            | true => rw [if_pos rfl]; exact ih.2 _ _ (by simp; omega)
        | some h =>
          simp only
          cases hb : targetBody h t with
          | none => simp
          | some o =>
            cases o with
            | none => simp
            | some q =>
              obtain ⟨r, t'⟩ := q
              have := targetBody_shorter hb
              simp only
              split
              · simp
              · exact ih.1 _ _ (by omega)
    · intro ws s hn
      rw [targetRun.eq_def]
      simp only
      cases v with
      | v1 => exact ih.1 _ _ (by simp at hn; omega)
      | v2 =>
        simp only at hn ⊢
        cases ws with
        | nil => simp
        | cons p t =>
          simp only [List.length_cons] at hn ⊢
          split
          · split
            · simp
            · exact ih.1 _ _ (by omega)
          · split <;> simp

/-! ## Replies -/

/-- The transaction and the data that a call of the other inspector stands for. -/
def TCall.fits (v : Ver) (q : Nat × Txn × List W) : TCall → Prop
  | .txn w h ds => extractHeader v w = some h ∧ h.id.toNat = q.1 ∧ h.ty = q.2.1.ty ∧ ds = q.2.2 ∧ ds.length = (dataWords q.2.1).getD 0 ∧
      (h.ty = .read ∨ h.ty = .niRead → h.wc.toNat = ds.length)
  | _ => False

/-- Two lists element by element. -/
inductive All2 {α β : Type} (R : α → β → Prop) : List α → List β → Prop
  | nil : All2 R [] []
  | cons {a : α} {b : β} {l : List α} {m : List β} : R a b → All2 R l m → All2 R (a :: l) (b :: m)

def TCall.words : TCall → List W
  | .txn w _ ds => w :: ds
  | .control p => [p]
  | _ => []

theorem targetBody_ok {h : Hdr} {t : Txn} {ds r : List W} (hty : h.ty = t.ty) (hl : ds.length = (dataWords t).getD 0)
    (hwc : h.ty = .read ∨ h.ty = .niRead → h.wc.toNat = ds.length) (hc : ∀ a n, t ≠ .cfgRead a n) :
    targetBody h (ds ++ r) = some (some (ds, r)) := by
  obtain ⟨ty, wc, id, info⟩ := h
  simp only at hty hwc
  subst hty
  have take : ∀ n, n = ds.length → (if n ≤ (ds ++ r).length then some ((ds ++ r).take n, (ds ++ r).drop n) else none) = some (ds, r) := by
    rintro n rfl
    rw [if_pos (by simp)]
    simp
  unfold targetBody
  cases t with
  | bot => simp only [Txn.ty, dataWords, Option.getD_none] at hl ⊢; rw [take 0 hl.symm]
  | read inc a n =>
    cases inc
    · simp only [Txn.ty] at hwc ⊢
      rw [if_neg (by simp)] at hwc ⊢
      simp only at hwc ⊢
      rw [take _ (hwc (by simp))]
    · simp only [Txn.ty, if_true] at hwc ⊢
      rw [take _ (hwc (by simp))]
  | write inc a d =>
    simp only [dataWords, Option.getD_none] at hl
    cases inc
    · simp only [Txn.ty]
      rw [if_neg (by simp)]
      simp only
      rw [take 0 hl.symm]
    · simp only [Txn.ty, if_true]; rw [take 0 hl.symm]
  | rmwBits a x o => simp only [Txn.ty, dataWords, Option.getD_some] at hl ⊢; rw [take 1 hl.symm]
  | rmwSum a x => simp only [Txn.ty, dataWords, Option.getD_some] at hl ⊢; rw [take 1 hl.symm]
  | cfgRead a n => exact absurd rfl (hc a n)

theorem targetRun_ok (v : Ver) {l : List (Nat × Txn × List W)} {ws : List W} (hp : FullReply v l ws) (hne : l ≠ [])
    (hc : ∀ q ∈ l, ∀ a n, q.2.1 ≠ .cfgRead a n) :
    ∃ cs : List TCall, All2 (TCall.fits v) l cs ∧ cs.flatMap TCall.words = ws ∧
      ∀ (σ : Type) (cb : σ → TCall → σ × Bool) (cont : Bool) (n : Nat) (s : σ), ws.length ≤ n →
        targetRun v cb cont n false ws s = .ret true (cs.foldl (fun s c => (cb s c).1) s) [] := by
  induction hp with
  | nil => exact absurd rfl hne
  | @cons id t ds l hw r f1 f2 f3 f4 f5 hr ih =>
    have hwcn : (BitVec.ofNat 32 (field hw 8 (wcBits v))).toNat = field hw 8 (wcBits v) := by
      simp only [BitVec.toNat_ofNat, field]; cases v <;> simp only [wcBits] <;> omega
    have hidn : (BitVec.ofNat 32 (field hw (28 - idBits v) (idBits v))).toNat = field hw (28 - idBits v) (idBits v) := by
      simp only [BitVec.toNat_ofNat, field]; cases v <;> simp only [idBits] <;> omega
    have hin : (BitVec.ofNat 8 (field hw 0 (infoBits v))).toNat = field hw 0 (infoBits v) := by
      simp only [BitVec.toNat_ofNat, field]; cases v <;> simp only [infoBits] <;> omega
    obtain ⟨h, hx, hty, hid, hwc⟩ : ∃ h, extractHeader v hw = some h ∧ h.ty = t.ty ∧ h.id.toNat = id ∧ h.wc.toNat = field hw 8 (wcBits v) :=
      ⟨⟨t.ty, BitVec.ofNat 32 (field hw 8 (wcBits v)), BitVec.ofNat 32 (field hw (28 - idBits v) (idBits v)), BitVec.ofNat 8 (field hw 0 (infoBits v))⟩,
        (extractHeader_iff _ _ _).2 ⟨f1, (tyOf_iff _ _ _).1 f2, hwcn, hidn, hin⟩, rfl, by rw [hidn, f3], hwcn⟩
    have hwc' : h.ty = .read ∨ h.ty = .niRead → h.wc.toNat = ds.length := by
      intro h'
      rw [hwc]
      rw [hty] at h'
      exact f5 (h'.elim Or.inl fun h => Or.inr (Or.inl h))
    have hb := targetBody_ok (r := r) hty f4 hwc' (hc (id, t, ds) (by simp))
    have hfit : TCall.fits v (id, t, ds) (.txn hw h ds) := ⟨hx, hid, hty, rfl, f4, hwc'⟩
    by_cases hl : l = []
    · subst hl
      cases hr
      refine ⟨[.txn hw h ds], .cons hfit .nil, by simp [TCall.words], ?_⟩
      intro σ cb cont n s hn
      cases n with
      | zero => simp at hn
      | succ n =>
        rw [List.append_nil] at hb
        simp only [List.cons_append, List.append_nil]
        rw [targetRun, hx]
        simp only [hb, if_true]
        rfl
    · obtain ⟨cs, c1, c2, c3⟩ := ih hl (fun q hq => hc q (by simp [hq]))
      refine ⟨.txn hw h ds :: cs, .cons hfit c1, by simp [TCall.words, c2], ?_⟩
      intro σ cb cont n s hn
      cases n with
      | zero => simp at hn
      | succ n =>
        have hrn : r ≠ [] := by
          rintro rfl
          cases hr
          exact hl rfl
        simp only [List.cons_append]
        rw [targetRun, hx]
        simp only [hb, if_neg hrn]
        rw [c3 σ cb cont n _ (by simp at hn; omega)]
        rfl

/-! ## Texts -/

theorem hexThen_ok (w : W) (t : Str) : ∃ l, hexThen w t = some l ∧ Shows l w t := by
  obtain ⟨⟨ds, h1, h2, h3⟩, _⟩ := Fmt.C65_hex 0 (by omega) (k := 4) (by omega) (by omega) w
  refine ⟨['0', 'x'] ++ ds ++ t, ?_, ds, rfl, h2, h3⟩
  rw [hexThen, h1]
  rfl

theorem dec_of {n : Nat} (hn : n ≤ 64) (w : BitVec n) : ∃ s, Fmt.decVar false w = some s ∧ Decimal s w.toNat := by
  obtain ⟨m, ds, _, _, _, h4, h5, h6, _⟩ := Fmt.C65_dec 0 (by omega) false hn w
  have hv : Fmt.value false w = (w.toNat : Int) := rfl
  rw [hv] at h4 h5
  rw [if_neg (by omega)] at h4
  exact ⟨_, h4, h5, h6⟩

theorem dec_ok (w : W) : ∃ s, dec w = some s ∧ Decimal s w.toNat := dec_of (by omega) w

theorem sized_ok (raw : W) (h : Hdr) (id : Nat) (t : Txn) (hid : h.id.toNat = id) :
    ∃ l s, sized raw h t.title.toList = some l ∧ Shows l raw s ∧ TitleLine id t (some h.wc.toNat) s := by
  obtain ⟨n, n1, n2⟩ := dec_ok h.wc
  obtain ⟨i, i1, i2⟩ := dec_ok h.id
  obtain ⟨l, l1, l2⟩ := hexThen_ok raw (" | ".toList ++ t.title.toList ++ ", size ".toList ++ n ++ ", transaction ID ".toList ++ i)
  refine ⟨l, _, ?_, l2, ", size ".toList ++ n, i, ?_, hid ▸ i2, n, rfl, n2⟩
  · rw [sized, n1, i1]; exact l1
  · simp only [List.append_assoc]

theorem plain_ok (raw : W) (h : Hdr) (id : Nat) (t : Txn) (hid : h.id.toNat = id) :
    ∃ l s, plain raw h t.title.toList = some l ∧ Shows l raw s ∧ TitleLine id t none s := by
  obtain ⟨i, i1, i2⟩ := dec_ok h.id
  obtain ⟨l, l1, l2⟩ := hexThen_ok raw (" | ".toList ++ t.title.toList ++ ", transaction ID ".toList ++ i)
  refine ⟨l, _, ?_, l2, [], i, ?_, hid ▸ i2, rfl⟩
  · rw [plain, i1]; exact l1
  · simp only [List.append_nil]

/-- A line shows a word. -/
def Line (w : W) (l : Str) : Prop := ∃ r, Shows l w r

theorem All2.append {α β : Type} {R : α → β → Prop} {l l' : List α} {m m' : List β} (h : All2 R l m) (h' : All2 R l' m') : All2 R (l ++ l') (m ++ m') := by
  induction h with
  | nil => exact h'
  | cons hr _ ih => exact .cons hr ih

theorem dataLines_ok (ds : List W) (k : W) (hk : k.toNat + ds.length ≤ 2 ^ 32) :
    ∃ ls, dataLines k ds = some ls ∧ DataLines k.toNat ds ls ∧ All2 Line ds ls := by
  induction ds generalizing k with
  | nil => exact ⟨[], rfl, rfl, .nil⟩
  | cons d ds ih =>
    obtain ⟨i, i1, i2⟩ := dec_ok k
    obtain ⟨l, l1, l2⟩ := hexThen_ok d (" |  > Data [".toList ++ i ++ "]".toList)
    by_cases hds : ds = []
    · subst hds
      refine ⟨[l], ?_, ⟨l, [], i, rfl, l2, i2, rfl⟩, .cons ⟨_, l2⟩ .nil⟩
      simp only [dataLines, i1, l1, Option.bind_eq_bind, Option.bind_some, Option.pure_def]
    · have hpos : 0 < ds.length := List.length_pos_iff.2 hds
      simp only [List.length_cons] at hk
      have hk1 : (k + 1).toNat = k.toNat + 1 := by
        rw [BitVec.toNat_add]
        exact Nat.mod_eq_of_lt (by simp; omega)
      obtain ⟨r, r1, r2, r3⟩ := ih (k + 1) (by omega)
      rw [hk1] at r2
      refine ⟨l :: r, ?_, ⟨l, r, i, rfl, l2, i2, r2⟩, .cons ⟨_, l2⟩ r3⟩
      simp only [dataLines, i1, l1, r1, Option.bind_eq_bind, Option.bind_some, Option.pure_def]

theorem wc_lt {v : Ver} {w : W} {h : Hdr} (hx : extractHeader v w = some h) : h.wc.toNat < 2 ^ 9 := by
  have := ((extractHeader_iff _ _ _).1 hx).2.2.1
  rw [this, field]
  cases v <;> simp only [wcBits] <;> omega

/-- The text of one transaction. -/
theorem HCall.lines_ok {v : Ver} {c : HCall} (hg : c.good v) {id : Nat} {t : Txn} (ha : c.asTxn = some (id, t)) :
    ∃ hw ls, c.lines = some (.notice, ls) ∧ TxnLines id t hw ls ∧ All2 Line c.words ls := by
  cases c with
  | txn w h r =>
    have hwc := wc_lt hg.1
    cases r with
    | bot =>
      cases ha
      obtain ⟨l, s, l1, l2, l3⟩ := plain_ok w h _ .bot rfl
      exact ⟨w, [l], by simp only [lines]; rw [show "BOT".toList = (Txn.bot).title.toList from rfl, l1]; rfl, ⟨l, [], s, rfl, l2, l3, rfl⟩, .cons ⟨_, l2⟩ .nil⟩
    | niRead a =>
      cases ha
      obtain ⟨l, s, l1, l2, l3⟩ := sized_ok w h _ (.read false a h.wc.toNat) rfl
      obtain ⟨x, x1, x2⟩ := hexThen_ok a " |  > Address".toList
      exact ⟨w, [l, x], by simp only [lines, addrLine, x1]; rw [show "Non-incrementing read".toList = (Txn.read false a h.wc.toNat).title.toList from rfl, l1]; rfl,
        ⟨l, [x], s, rfl, l2, l3, x, rfl, x2⟩, .cons ⟨_, l2⟩ (.cons ⟨_, x2⟩ .nil)⟩
    | read a =>
      cases ha
      obtain ⟨l, s, l1, l2, l3⟩ := sized_ok w h _ (.read true a h.wc.toNat) rfl
      obtain ⟨x, x1, x2⟩ := hexThen_ok a " |  > Address".toList
      exact ⟨w, [l, x], by simp only [lines, addrLine, x1]; rw [show "Incrementing read".toList = (Txn.read true a h.wc.toNat).title.toList from rfl, l1]; rfl,
        ⟨l, [x], s, rfl, l2, l3, x, rfl, x2⟩, .cons ⟨_, l2⟩ (.cons ⟨_, x2⟩ .nil)⟩
    | cfgRead a =>
      cases ha
      obtain ⟨l, s, l1, l2, l3⟩ := sized_ok w h _ (.cfgRead a h.wc.toNat) rfl
      obtain ⟨x, x1, x2⟩ := hexThen_ok a " |  > Address".toList
      exact ⟨w, [l, x], by simp only [lines, addrLine, x1]; rw [show "Incrementing 'configuration space' read".toList = (Txn.cfgRead a h.wc.toNat).title.toList from rfl, l1]; rfl,
        ⟨l, [x], s, rfl, l2, l3, x, rfl, x2⟩, .cons ⟨_, l2⟩ (.cons ⟨_, x2⟩ .nil)⟩
    | niWrite a ds =>
      simp only [asTxn] at ha
      split at ha
      · rename_i hn
        cases ha
        obtain ⟨l, s, l1, l2, l3⟩ := sized_ok w h _ (.write false a ds) rfl
        obtain ⟨x, x1, x2⟩ := hexThen_ok a " |  > Address".toList
        obtain ⟨r, r1, r2, r3⟩ := dataLines_ok ds 0 (by simp; omega)
        rw [hn] at l3
        exact ⟨w, l :: x :: r, by simp only [lines, addrLine, x1, r1]; rw [show "Non-incrementing write".toList = (Txn.write false a ds).title.toList from rfl, l1]; rfl,
          ⟨l, x :: r, s, rfl, l2, l3, x, r, rfl, x2, r2⟩, .cons ⟨_, l2⟩ (.cons ⟨_, x2⟩ r3)⟩
      · cases ha
    | write a ds =>
      simp only [asTxn] at ha
      split at ha
      · rename_i hn
        cases ha
        obtain ⟨l, s, l1, l2, l3⟩ := sized_ok w h _ (.write true a ds) rfl
        obtain ⟨x, x1, x2⟩ := hexThen_ok a " |  > Address".toList
        obtain ⟨r, r1, r2, r3⟩ := dataLines_ok ds 0 (by simp; omega)
        rw [hn] at l3
        exact ⟨w, l :: x :: r, by simp only [lines, addrLine, x1, r1]; rw [show "Incrementing write".toList = (Txn.write true a ds).title.toList from rfl, l1]; rfl,
          ⟨l, x :: r, s, rfl, l2, l3, x, r, rfl, x2, r2⟩, .cons ⟨_, l2⟩ (.cons ⟨_, x2⟩ r3)⟩
      · cases ha
    | rmwSum a d =>
      cases ha
      obtain ⟨l, s, l1, l2, l3⟩ := plain_ok w h _ (.rmwSum a d) rfl
      obtain ⟨x, x1, x2⟩ := hexThen_ok a " |  > Address".toList
      obtain ⟨y, y1, y2⟩ := hexThen_ok d " |  > Addend".toList
      exact ⟨w, [l, x, y], by simp only [lines, addrLine, x1, y1]; rw [show "Read-modify-write sum".toList = (Txn.rmwSum a d).title.toList from rfl, l1]; rfl,
        ⟨l, [x, y], s, rfl, l2, l3, x, y, rfl, x2, y2⟩, .cons ⟨_, l2⟩ (.cons ⟨_, x2⟩ (.cons ⟨_, y2⟩ .nil))⟩
    | rmwBits a m o =>
      cases ha
      obtain ⟨l, s, l1, l2, l3⟩ := plain_ok w h _ (.rmwBits a m o) rfl
      obtain ⟨x, x1, x2⟩ := hexThen_ok a " |  > Address".toList
      obtain ⟨y, y1, y2⟩ := hexThen_ok m " |  > And-term".toList
      obtain ⟨z, z1, z2⟩ := hexThen_ok o " |  > Or-term".toList
      exact ⟨w, [l, x, y, z], by simp only [lines, addrLine, x1, y1, z1]; rw [show "Read-modify-write bits".toList = (Txn.rmwBits a m o).title.toList from rfl, l1]; rfl,
        ⟨l, [x, y, z], s, rfl, l2, l3, x, y, z, rfl, x2, y2, z2⟩, .cons ⟨_, l2⟩ (.cons ⟨_, x2⟩ (.cons ⟨_, y2⟩ (.cons ⟨_, z2⟩ .nil)))⟩
  | _ => exact absurd hg (by simp [HCall.good])

/-- The text of one transaction of a reply. -/
theorem TCall.lines_ok {v : Ver} {c : TCall} {q : Nat × Txn × List W} (hg : c.fits v q) (hc : ∀ a n, q.2.1 ≠ .cfgRead a n) :
    ∃ hw ls, c.lines = some (.notice, ls) ∧ ReplyLines q.1 q.2.1 q.2.2 hw ls ∧ All2 Line c.words ls := by
  obtain ⟨id, t, ds⟩ := q
  cases c with
  | txn w h ds' =>
    obtain ⟨g1, g2, g3, g4, g5, g6⟩ := hg
    simp only at g2 g3 g4 g5 g6 hc ⊢
    subst g4
    have hwc := wc_lt g1
    cases t with
    | bot =>
      obtain ⟨l, s, l1, l2, l3⟩ := plain_ok w h _ .bot g2
      have : ds' = [] := by simpa [dataWords] using g5
      subst this
      exact ⟨w, [l], by simp only [lines, g3, Txn.ty]; rw [show "BOT".toList = (Txn.bot).title.toList from rfl, l1]; rfl, ⟨l, [], s, rfl, l2, rfl, l3⟩, .cons ⟨_, l2⟩ .nil⟩
    | read inc a n =>
      obtain ⟨l, s, l1, l2, l3⟩ := sized_ok w h _ (.read inc a n) g2
      have hn : ds'.length = n := by simpa [dataWords] using g5
      have hw' : h.wc.toNat = ds'.length := g6 (by rw [g3]; cases inc <;> simp [Txn.ty])
      obtain ⟨r, r1, r2, r3⟩ := dataLines_ok ds' 0 (by simp; omega)
      rw [hw', hn] at l3
      refine ⟨w, l :: r, ?_, ⟨l, r, s, rfl, l2, r2, l3⟩, .cons ⟨_, l2⟩ r3⟩
      cases inc
      · simp only [lines, g3, Txn.ty, r1]
        rw [if_neg (by simp)]
        rw [show "Non-incrementing read".toList = (Txn.read false a n).title.toList from rfl]
        simp only [l1]
        rfl
      · simp only [lines, g3, Txn.ty, r1, if_true]
        rw [show "Incrementing read".toList = (Txn.read true a n).title.toList from rfl, l1]; rfl
    | write inc a d =>
      obtain ⟨l, s, l1, l2, l3⟩ := sized_ok w h _ (.write inc a d) g2
      have : ds' = [] := by simpa [dataWords] using g5
      subst this
      refine ⟨w, [l], ?_, ⟨l, [], s, rfl, l2, rfl, _, l3⟩, .cons ⟨_, l2⟩ .nil⟩
      cases inc
      · simp only [lines, g3, Txn.ty]
        rw [if_neg (by simp)]
        rw [show "Non-incrementing write".toList = (Txn.write false a d).title.toList from rfl]
        simp only [l1]
        rfl
      · simp only [lines, g3, Txn.ty, if_true]
        rw [show "Incrementing write".toList = (Txn.write true a d).title.toList from rfl, l1]; rfl
    | rmwSum a x =>
      obtain ⟨l, s, l1, l2, l3⟩ := plain_ok w h _ (.rmwSum a x) g2
      obtain ⟨d, rfl⟩ : ∃ d, ds' = [d] := by
        simp only [dataWords, Option.getD_some] at g5
        exact List.length_eq_one_iff.1 g5
      obtain ⟨y, y1, y2⟩ := hexThen_ok d " |  > Data".toList
      refine ⟨w, [l, y], ?_, ⟨l, [y], s, rfl, l2, ⟨y, d, rfl, rfl, y2⟩, l3⟩, .cons ⟨_, l2⟩ (.cons ⟨_, y2⟩ .nil)⟩
      simp only [lines, g3, Txn.ty, List.mapM_cons, List.mapM_nil, y1]
      rw [show "Read-modify-write sum".toList = (Txn.rmwSum a x).title.toList from rfl, l1]; rfl
    | rmwBits a x o =>
      obtain ⟨l, s, l1, l2, l3⟩ := plain_ok w h _ (.rmwBits a x o) g2
      obtain ⟨d, rfl⟩ : ∃ d, ds' = [d] := by
        simp only [dataWords, Option.getD_some] at g5
        exact List.length_eq_one_iff.1 g5
      obtain ⟨y, y1, y2⟩ := hexThen_ok d " |  > Data".toList
      refine ⟨w, [l, y], ?_, ⟨l, [y], s, rfl, l2, ⟨y, d, rfl, rfl, y2⟩, l3⟩, .cons ⟨_, l2⟩ (.cons ⟨_, y2⟩ .nil)⟩
      simp only [lines, g3, Txn.ty, List.mapM_cons, List.mapM_nil, y1]
      rw [show "Read-modify-write bits".toList = (Txn.rmwBits a x o).title.toList from rfl, l1]; rfl
    | cfgRead a n => exact absurd rfl (hc a n)
  | _ => exact absurd hg (by simp [TCall.fits])

end Verif.Insp
