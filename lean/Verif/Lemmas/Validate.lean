import Verif.Model.Validate
import Verif.Spec.Reply
import Verif.Props.C06
/-! `validate` on the packets the client builds. -/

set_option autoImplicit false
set_option linter.unusedSimpArgs false

namespace Verif
open Spec

theorem txTy_eq (t : Txn) : t.ty = txTy t := by
  cases t with
  | read inc => cases inc <;> rfl
  | write inc => cases inc <;> rfl
  | _ => rfl

theorem wireCode_tyOf {v : Ver} {x : Nat} {ty : Ty} (h : tyOf v x = some ty) : wireCode v ty = some x := by
  have := List.find?_some h
  simpa using this

theorem tyOf_iff (v : Ver) (x : Nat) (ty : Ty) : tyOf v x = some ty ↔ wireCode v ty = some x :=
  ⟨wireCode_tyOf, tyOf_wireCode⟩

/-- Header of an item as `validate` extracts it. -/
theorem extract_hdrWord {v : Ver} {it : Item} (h : txLegal v it.txn) :
    ∃ i, extractHeader v (hdrWord v it) = some ⟨txTy it.txn, BitVec.ofNat 32 (txWC it.txn),
      BitVec.ofNat 32 (it.cnt % 2 ^ idBits v), i⟩ := by
  refine ⟨BitVec.ofNat 8 ((reqInfo v).toNat % 2 ^ infoBits v), ?_⟩
  rw [calcHeader_extract (hdrWord_spec h)]
  have hwc : txWC it.txn < 2 ^ 32 := by
    have := h.2; cases v <;> simp only [wcBits] at this <;> omega
  rw [BitVec.toNat_ofNat, BitVec.toNat_ofNat, Nat.mod_eq_of_lt hwc, Nat.mod_eq_of_lt h.2]
  congr 2
  cases v <;> simp only [idBits] <;> congr 1 <;> omega

theorem sendAdvance_enc {v : Ver} {it : Item} (h : txLegal v it.txn) (i : W) (f : BitVec 8) :
    sendAdvance ⟨txTy it.txn, BitVec.ofNat 32 (txWC it.txn), i, f⟩ = (enc v it).length := by
  have hwc : txWC it.txn < 2 ^ 32 := by
    have := h.2; cases v <;> simp only [wcBits] at this <;> omega
  unfold enc sendAdvance
  revert hwc
  cases it.txn with
  | read inc => cases inc <;> simp [txTy, txArgs]
  | write inc a ds =>
    cases inc <;> simp only [txTy, txArgs, txWC, List.length_cons, BitVec.toNat_ofNat] <;> intro hwc <;>
      rw [Nat.mod_eq_of_lt hwc] <;> omega
  | _ => simp [txTy, txArgs]

/-- `extractHeader` and comparison of a reply header against the independent verdict. -/
theorem verdict_extract (v : Ver) (id : Nat) (hid : id < 2 ^ 32) (ty : Ty) (w : W) :
    verdict v id ty w = match extractHeader v w with
      | none => some .unparsableReply
      | some hr => if BitVec.ofNat 32 id ≠ hr.id ∨ ty ≠ hr.ty then some .fieldsIncorrect
        else if hr.info ≠ 0#8 then some (.responseCode hr.info) else none := by
  unfold verdict
  cases he : extractHeader v w with
  | none =>
    have hn : field w 28 4 ≠ verNibble v ∨ tyOf v (field w (tyLow v) (8 - tyLow v)) = none := by
      by_cases h1 : field w 28 4 = verNibble v
      · right
        cases ht : tyOf v (field w (tyLow v) (8 - tyLow v)) with
        | none => rfl
        | some ty =>
          exfalso
          have h3 : field w 8 (wcBits v) < 2 ^ 32 := by
            have : field w 8 (wcBits v) < 2 ^ wcBits v := Nat.mod_lt _ (Nat.two_pow_pos _)
            cases v <;> simp only [wcBits] at this ⊢ <;> omega
          have h4 : field w (28 - idBits v) (idBits v) < 2 ^ 32 := by
            have : field w (28 - idBits v) (idBits v) < 2 ^ idBits v := Nat.mod_lt _ (Nat.two_pow_pos _)
            cases v <;> simp only [idBits] at this ⊢ <;> omega
          have h5 : field w 0 (infoBits v) < 2 ^ 8 := by
            have : field w 0 (infoBits v) < 2 ^ infoBits v := Nat.mod_lt _ (Nat.two_pow_pos _)
            cases v <;> simp only [infoBits] at this ⊢ <;> omega
          have := (extractHeader_iff v w ⟨ty, BitVec.ofNat 32 (field w 8 (wcBits v)),
            BitVec.ofNat 32 (field w (28 - idBits v) (idBits v)), BitVec.ofNat 8 (field w 0 (infoBits v))⟩).2
            ⟨h1, wireCode_tyOf ht, by simp [Nat.mod_eq_of_lt h3], by simp [Nat.mod_eq_of_lt h4],
              by simp [Nat.mod_eq_of_lt h5]⟩
          rw [he] at this; cases this
      · exact .inl h1
    rw [if_pos hn]
  | some hr =>
    obtain ⟨h1, h2, h3, h4, h5⟩ := (extractHeader_iff v w hr).1 he
    have ht := tyOf_wireCode h2
    rw [if_neg (by rw [ht]; simp [h1]), ht, ← h4, ← h5]
    have e1 : (hr.id.toNat ≠ id ∨ some hr.ty ≠ some ty) ↔ (BitVec.ofNat 32 id ≠ hr.id ∨ ty ≠ hr.ty) := by
      refine or_congr (not_congr ?_) (not_congr ?_)
      · rw [← BitVec.toNat_inj, BitVec.toNat_ofNat, Nat.mod_eq_of_lt hid]; exact eq_comm
      · rw [Option.some_inj]; exact eq_comm
    have e2 : hr.info.toNat ≠ 0 ↔ hr.info ≠ 0#8 := by
      refine not_congr ?_
      rw [← BitVec.toNat_inj]; rfl
    have e3 : BitVec.ofNat 8 hr.info.toNat = hr.info := by simp
    simp only [e1, e2, e3]

/-- Verdict on the reply of an item. -/
def itemVerdict (v : Ver) (rd : Loc → W) (it : Item) : Option Exc :=
  verdict v (it.cnt % 2 ^ idBits v) (txTy it.txn) (rd (.hdr it.obj it.hk))

/-- An optional complaint as the result of `validate`. -/
def VOut.of : Option Exc → VOut
  | none => .ok
  | some e => .err e

theorem replyTwo_data (t : Txn) : replyTwo (txTy t) = (txData t).isSome := by
  cases t with
  | read inc => cases inc <;> rfl
  | write inc => cases inc <;> rfl
  | _ => rfl

theorem coreValidate_items {v : Ver} (rd : Loc → W) (its : List Item) (h : ∀ it ∈ its, txLegal v it.txn)
    (hne : its ≠ []) (fuel cap : Nat) (hf : its.length ≤ fuel) (hcap : (its.flatMap (enc v)).length ≤ cap)
    (hlast : ∀ l, its.getLast? = some l → l.txn = .bot → (its.flatMap (enc v)).length + 1 ≤ cap) :
    coreValidate v rd fuel cap (its.flatMap (enc v)) (its.flatMap slots) =
      VOut.of (its.findSome? (itemVerdict v rd)) := by
  induction its generalizing fuel cap with
  | nil => exact absurd rfl hne
  | cons it its ih =>
    cases fuel with
    | zero => simp at hf
    | succ fuel =>
      have hl := h it (by simp)
      obtain ⟨i, hx⟩ := extract_hdrWord hl
      have hadv := sendAdvance_enc hl (BitVec.ofNat 32 (it.cnt % 2 ^ idBits v)) i
      have hlen := enc_length v it
      have hcap2 : 2 ≤ cap := by
        rw [List.flatMap_cons, List.length_append] at hcap hlast
        cases its with
        | cons b l =>
          have := length_le_flatMap_enc v (b :: l)
          simp only [List.length_cons] at this
          omega
        | nil =>
          by_cases hb : it.txn = .bot
          · have := hlast it (by simp) hb
            omega
          · have : 1 ≤ (txArgs it.txn).length := by
              cases ht : it.txn <;> simp [txArgs] at hb ⊢
              exact hb ht
            omega
      have hid : it.cnt % 2 ^ idBits v < 2 ^ 32 := by
        have : it.cnt % 2 ^ idBits v < 2 ^ idBits v := Nat.mod_lt _ (Nat.two_pow_pos _)
        cases v <;> simp only [idBits] at this ⊢ <;> omega
      have hv := verdict_extract v _ hid (txTy it.txn) (rd (.hdr it.obj it.hk))
      have hsend : (it :: its).flatMap (enc v) = hdrWord v it :: (txArgs it.txn ++ its.flatMap (enc v)) := by
        simp [enc]
      have hslots : (it :: its).flatMap slots = ⟨.hdr it.obj it.hk, 1⟩ :: ((slots it).tail ++ its.flatMap slots) := by
        simp [slots]
      have hsl : replyAdvance (txTy it.txn) ((slots it).tail ++ its.flatMap slots) = some (its.flatMap slots) := by
        unfold replyAdvance
        rw [replyTwo_data]
        cases hd : txData it.txn with
        | none => simp [slots, hd]
        | some n => simp [slots, hd]
      rw [List.findSome?_cons]
      have hiv : itemVerdict v rd it = verdict v (it.cnt % 2 ^ idBits v) (txTy it.txn) (rd (.hdr it.obj it.hk)) := rfl
      rw [hiv, hv, hsend, hslots]
      unfold coreValidate
      simp only [hx, Nat.one_ne_zero, if_false]
      cases he : extractHeader v (rd (.hdr it.obj it.hk)) with
      | none => simp [vfail, hcap2, VOut.of]
      | some hr =>
        simp only
        by_cases h1 : BitVec.ofNat 32 (it.cnt % 2 ^ idBits v) ≠ hr.id ∨ txTy it.txn ≠ hr.ty
        · rw [if_pos h1, if_pos h1]; simp [vfail, hcap2, VOut.of]
        · rw [if_neg h1, if_neg h1]
          by_cases h2 : hr.info ≠ 0#8
          · rw [if_pos h2, if_pos h2]; simp [vfail, hcap2, VOut.of]
          · rw [if_neg h2, if_neg h2]
            have hty : hr.ty = txTy it.txn := by
              by_cases hh : txTy it.txn = hr.ty
              · exact hh.symm
              · exact absurd (.inr hh) h1
            rw [hty, hsl, hadv]
            simp only
            rw [← hsend]
            cases its with
            | nil =>
              rw [if_pos (.inl (by simp))]; rfl
            | cons b l =>
              have hlb : 1 ≤ ((b :: l).flatMap (enc v)).length := by
                have := length_le_flatMap_enc v (b :: l)
                simp only [List.length_cons] at this; omega
              have hnil : (b :: l).flatMap slots ≠ [] := by simp [slots]
              rw [if_neg, if_neg]
              · have := ih (fun x hx => h x (by simp [hx])) (by simp) fuel (cap - (enc v it).length)
                  (by simpa using hf)
                  (by rw [List.flatMap_cons, List.length_append] at hcap; omega)
                  (by
                    intro x hx hb
                    have := hlast x (by simpa using hx) hb
                    rw [List.flatMap_cons, List.length_append] at this
                    omega)
                rw [List.flatMap_cons (x := it), List.drop_left]
                exact this
              · rw [List.flatMap_cons (x := it), List.length_append]; omega
              · rw [List.flatMap_cons (x := it), List.length_append]
                rintro (hh | hh)
                · omega
                · exact hnil hh

theorem bswap16_toNat (x : BitVec 16) : (bswap16 x).toNat = x.toNat % 256 * 256 + x.toNat / 256 := by
  unfold bswap16
  have hn := x.isLt
  rw [BitVec.toNat_or, BitVec.toNat_shiftLeft, BitVec.toNat_ushiftRight, Nat.shiftRight_eq_div_pow, Nat.shiftLeft_eq]
  have e : x.toNat * 2 ^ 8 % 2 ^ 16 = 2 ^ 8 * (x.toNat % 256) := by omega
  rw [e, ← Nat.two_pow_add_eq_or_of_lt (by omega)]; omega

/-- The ControlHub part of the verdict, on the words themselves. -/
def hubV (hub : Option (W × BitVec 16)) (rd : Loc → W) (k : Nat) : Option Exc :=
  match hub with
  | none => none
  | some (ip, port) => hubVerdict ip.toNat port.toNat (rd (.hub k 1)).toNat (rd (.hub k 2)).toNat

/-- The packet-header part of the verdict. -/
def pktV (v : Ver) (rd : Loc → W) (k : Nat) : Option Exc :=
  match v with
  | .v1 => none
  | .v2 => if rd (.pkt k) ≠ 0x200000F0#32 then some .packetHeader else none

/-- Verdict on a finished packet. -/
def finVerdict (c : Cfg) (rd : Loc → W) (f : Fin') : Option Exc :=
  (hubV c.hub rd f.g.k).or ((pktV c.ver rd f.g.k).or (f.all.findSome? (itemVerdict c.ver rd)))

theorem hub_check (ip : W) (port : BitVec 16) (a p : W) (r : VOut) :
    (if a ≠ ip then VOut.err .hubAddress
      else if p.setWidth 16 ≠ port then .err .hubAddress
      else if bswap16 ((p >>> 16).setWidth 16) ≠ 0#16 then
        if bswap16 ((p >>> 16).setWidth 16) = 1#16 ∨ bswap16 ((p >>> 16).setWidth 16) = 3#16 ∨
          bswap16 ((p >>> 16).setWidth 16) = 4#16 then .err .hubTimeout else .err .hubError
      else r) = match hubVerdict ip.toNat port.toNat a.toNat p.toNat with
        | some e => .err e
        | none => r := by
  unfold hubVerdict
  have hc : (bswap16 ((p >>> 16).setWidth 16)).toNat = p.toNat / 2 ^ 24 % 256 + p.toNat / 2 ^ 16 % 256 * 256 := by
    rw [bswap16_toNat, BitVec.toNat_setWidth, BitVec.toNat_ushiftRight, Nat.shiftRight_eq_div_pow]
    have := p.isLt
    omega
  have e1 : a ≠ ip ↔ a.toNat ≠ ip.toNat := not_congr BitVec.toNat_inj.symm
  have e2 : p.setWidth 16 ≠ port ↔ p.toNat % 2 ^ 16 ≠ port.toNat := by
    rw [← BitVec.toNat_setWidth]; exact not_congr BitVec.toNat_inj.symm
  have e3 : ∀ n : Nat, n < 2 ^ 16 → (bswap16 ((p >>> 16).setWidth 16) = BitVec.ofNat 16 n ↔
      p.toNat / 2 ^ 24 % 256 + p.toNat / 2 ^ 16 % 256 * 256 = n) := by
    intro n hn
    rw [← BitVec.toNat_inj, hc, BitVec.toNat_ofNat, Nat.mod_eq_of_lt hn]
  have b0 := e3 0 (by decide)
  have b1 := e3 1 (by decide)
  have b3 := e3 3 (by decide)
  have b4 := e3 4 (by decide)
  have b0' := not_congr b0
  rw [← ne_eq] at b0'
  simp only [e1, e2, b0', b1, b3, b4]
  by_cases h1 : a.toNat ≠ ip.toNat
  · simp only [if_pos h1]
  · simp only [if_neg h1]
    by_cases h2 : p.toNat % 2 ^ 16 ≠ port.toNat
    · simp only [if_pos h2]
    · simp only [if_neg h2]
      generalize p.toNat / 2 ^ 24 % 256 + p.toNat / 2 ^ 16 % 256 * 256 = code
      by_cases h3 : code = 0
      · simp [h3]
      · by_cases h4 : code = 1 ∨ code = 3 ∨ code = 4
        · simp [h3, h4]
        · simp [h3, h4]

/-- The error messages of `validate` never read behind the allocation: in IPbus 1.3 the allocation is larger
than a padded minimal packet. -/
def CapOK (c : Cfg) : Prop := c.ver = .v1 → 4 * (8 + c.preambleSize) ≤ c.maxSend.toNat

theorem core_fin {c : Cfg} {f : Fin'} (hw : WF c) (h : FinOK c f) (hcap : CapOK c) (hne : f.all ≠ []) (rd : Loc → W) :
    coreValidate c.ver rd (f.all.flatMap (enc c.ver)).length (c.maxSend.toNat / 4 - (preSend c).length)
      (f.all.flatMap (enc c.ver)) (f.all.flatMap slots) = VOut.of (f.all.findSome? (itemVerdict c.ver rd)) := by
  have hlen : (f.g.items.flatMap (enc c.ver)).length + (preSend c).length = (mkBuf c f.g).send.length := by
    simp [mkBuf]; omega
  have hpad : ((padItems f.po f.np).flatMap (enc c.ver)).length = f.np := by
    generalize f.po = o
    generalize f.np = n
    induction n generalizing o with
    | zero => rfl
    | succ n ih => rw [padItems, List.flatMap_cons, List.length_append, ih]; simp [enc, txArgs]; omega
  have hall : (f.all.flatMap (enc c.ver)).length = (f.g.items.flatMap (enc c.ver)).length + f.np := by
    rw [Fin'.all, List.flatMap_append, List.length_append, hpad]
  have hnp := h.np
  have hfit := h.grp.fitS
  have hpre : (preSend c).length ≤ c.preambleSize := by
    unfold preSend Cfg.preambleSize; cases c.hub <;> cases c.ver <;> simp
  have hws := hw.send
  refine coreValidate_items rd f.all (fin_legal h) hne _ _ (length_le_flatMap_enc _ _) ?_ ?_
  · cases hv : c.ver with
    | v1 =>
      have hp := hw.pad hv
      simp only [padCount, hv] at hnp
      rw [hv] at hall hlen
      rw [hall]; omega
    | v2 =>
      simp only [padCount, hv] at hnp
      rw [hv] at hall hlen
      rw [hall]; omega
  · intro l hl hb
    cases hv : c.ver with
    | v2 =>
      exfalso
      have hm := List.mem_of_getLast? hl
      have hsup := (fin_legal h l hm).1
      rw [hv, hb] at hsup
      simp [supported, txTy] at hsup
    | v1 =>
      have hp := hcap hv
      simp only [padCount, hv] at hnp
      rw [hv] at hall hlen
      rw [hall]
      by_cases h0 : f.np = 0
      · -- no padding: the last item would be the byte-order transaction of the preamble
        exfalso
        have hs := h.grp.shape
        rw [hv] at hs
        obtain ⟨n, o, us, hi, hu⟩ := hs
        have hl' : f.g.items.getLast? = some l := by
          rw [Fin'.all, h0] at hl; simpa [padItems] using hl
        rw [hi] at hl'
        cases us with
        | cons u us =>
          rw [List.getLast?_cons_cons] at hl'
          exact hu l (List.mem_of_getLast? hl') hb
        | nil =>
          rw [hi] at hlen
          simp only [List.flatMap_cons, List.flatMap_nil, enc, txArgs, List.append_nil, List.length_cons,
            List.length_nil] at hlen
          unfold Cfg.preambleSize at hpre hnp
          split at hpre <;> split at hnp <;> omega
      · omega

theorem fin_ne {c : Cfg} {f : Fin'} (h : FinOK c f) (hr : c.ver = .v2 → Roomy c) : f.all ≠ [] := by
  cases hv : c.ver with
  | v1 =>
    have hs := h.grp.shape
    rw [hv] at hs
    obtain ⟨n, o, us, hi, hu⟩ := hs
    simp [Fin'.all, hi]
  | v2 =>
    have := h.ne (hr hv)
    simp [Fin'.all, this]

theorem patch_none {c : Cfg} (hh : c.hub = none) (b : Buf) : patch c b = b := by unfold patch; rw [hh]

/-- `validate` on a finished packet. -/
theorem validateBuf_fin {c : Cfg} {f : Fin'} (hw : WF c) (h : FinOK c f) (hcap : CapOK c) (hr : c.ver = .v2 → Roomy c)
    (rd : Loc → W) : validateBuf c rd (f.buf c) = VOut.of (finVerdict c rd f) := by
  have hcore := core_fin hw h hcap (fin_ne h hr) rd
  -- the IPbus part
  have hip : ∀ d, (preSend c).length = d + (match c.ver with | .v1 => 0 | .v2 => 1) →
      ipbusValidate c.ver rd (c.maxSend.toNat / 4 - d)
      ((match c.ver with | .v1 => [] | .v2 => [0x200000F0#32]) ++ f.all.flatMap (enc c.ver))
      ((match c.ver with | .v1 => [] | .v2 => [⟨.pkt f.g.k, 1⟩]) ++ f.all.flatMap slots) =
      VOut.of ((pktV c.ver rd f.g.k).or (f.all.findSome? (itemVerdict c.ver rd))) := by
    intro d hd
    cases hv : c.ver with
    | v1 =>
      rw [hv] at hcore hd
      simp only [List.nil_append, ipbusValidate, pktV, Option.none_or]
      rw [← hcore, hd]; rfl
    | v2 =>
      rw [hv] at hcore hd
      simp only [List.cons_append, List.nil_append, ipbusValidate, pktV, Nat.one_ne_zero, if_false]
      by_cases hp : rd (.pkt f.g.k) = 0x200000F0#32
      · rw [if_neg (by simp [hp]), if_neg (by simp [hp])]
        simp only [Option.none_or]
        rw [← hcore, hd, Nat.sub_sub]
      · rw [if_pos (fun e => hp e.symm), if_pos hp]; rfl
  unfold validateBuf finVerdict
  cases hh : c.hub with
  | none =>
    simp only [hubV, Option.none_or]
    have := hip 0 (by unfold preSend; rw [hh]; cases c.ver <;> rfl)
    rw [← this, Fin'.buf, patch_none hh]
    unfold mkBuf preSend preSlots
    rw [hh]; rfl
  | some q =>
    obtain ⟨ip, port⟩ := q
    simp only [hubV]
    have := hip 2 (by unfold preSend; rw [hh]; cases c.ver <;> rfl)
    have hrep : (f.buf c).reply = ⟨.hub f.g.k 0, 1⟩ :: ⟨.hub f.g.k 1, 1⟩ :: ⟨.hub f.g.k 2, 1⟩ ::
        ((match c.ver with | .v1 => [] | .v2 => [⟨.pkt f.g.k, 1⟩]) ++ f.all.flatMap slots) := by
      unfold Fin'.buf; rw [patch_reply]; unfold mkBuf preSlots; rw [hh]; rfl
    have hsend : (f.buf c).send.drop 2 =
        (match c.ver with | .v1 => [] | .v2 => [0x200000F0#32]) ++ f.all.flatMap (enc c.ver) := by
      have h1 := patch_ipbus c (mkBuf c ⟨f.g.k, f.all⟩)
      rw [mkBuf_ipbus] at h1
      unfold ipbusPart at h1
      rw [hh] at h1
      exact h1
    unfold hubValidate
    rw [hrep, hsend]
    simp only [Nat.one_ne_zero, or_self, if_false]
    rw [hub_check, this]
    cases hubVerdict ip.toNat port.toNat (rd (.hub f.g.k 1)).toNat (rd (.hub f.g.k 2)).toNat <;> rfl

theorem verdicts_items (v : Ver) (rd : Loc → W) (its : List Item) :
    verdicts v rd ((its.map fun it => (it.cnt % 2 ^ idBits v, it.txn)).zip ((its.map itemSlot).map fun q => q.2.1)) =
      its.findSome? (itemVerdict v rd) := by
  unfold verdicts
  induction its with
  | nil => rfl
  | cons it its ih =>
    simp only [List.map_cons, List.zip_cons_cons, List.findSome?_cons]
    rw [ih]
    simp only [itemVerdict, itemSlot, txTy_eq]

/-- The specification's verdict on a finished packet. -/
theorem packetVerdict_fin {c : Cfg} {f : Fin'} (h : FinOK c f) (rd : Loc → W) :
    packetVerdict c rd (f.buf c) = some (finVerdict c rd f) := by
  have hparse := parse_fin h
  have hassign := assign_items f.all
  have hbody : packetVerdict.body c rd (f.all.map fun it => (it.cnt % 2 ^ idBits c.ver, it.txn)) (f.all.flatMap slots)
      = some (f.all.findSome? (itemVerdict c.ver rd)) := by
    unfold packetVerdict.body
    rw [List.map_map]
    have : (Prod.snd ∘ fun it : Item => (it.cnt % 2 ^ idBits c.ver, it.txn)) = Item.txn := rfl
    rw [this, hassign, Option.map_some, verdicts_items]
  have hip : packetVerdict.inner c rd ((match c.ver with | .v1 => [] | .v2 => [0x200000F0#32]) ++ f.all.flatMap (enc c.ver))
      ((match c.ver with | .v1 => [] | .v2 => [⟨.pkt f.g.k, 1⟩]) ++ f.all.flatMap slots) =
      some ((pktV c.ver rd f.g.k).or (f.all.findSome? (itemVerdict c.ver rd))) := by
    have hp : parsePacket c.ver ((match c.ver with | .v1 => [] | .v2 => [0x200000F0#32]) ++ f.all.flatMap (enc c.ver)) =
        some (0, f.all.map fun it => (it.cnt % 2 ^ idBits c.ver, it.txn)) := by
      rw [← hparse, Fin'.buf, patch_ipbus, mkBuf_ipbus]
      cases c.ver <;> rfl
    unfold packetVerdict.inner
    rw [hp]
    cases hv : c.ver with
    | v1 => rw [hv] at hbody; simpa [pktV] using hbody
    | v2 =>
      rw [hv] at hbody
      simp only [List.cons_append, List.nil_append, pktV]
      by_cases hp : rd (.pkt f.g.k) = 0x200000F0#32
      · rw [if_neg (by simp [hp]), if_neg (by simp [hp])]; simpa using hbody
      · rw [if_pos hp, if_pos hp]; rfl
  unfold packetVerdict finVerdict
  cases hh : c.hub with
  | none =>
    simp only [hubV, Option.none_or]
    rw [← hip, Fin'.buf, patch_none hh]
    unfold mkBuf preSend preSlots
    rw [hh]; rfl
  | some q =>
    obtain ⟨ip, port⟩ := q
    simp only [hubV]
    have hrep : (f.buf c).reply = ⟨.hub f.g.k 0, 1⟩ :: ⟨.hub f.g.k 1, 1⟩ :: ⟨.hub f.g.k 2, 1⟩ ::
        ((match c.ver with | .v1 => [] | .v2 => [⟨.pkt f.g.k, 1⟩]) ++ f.all.flatMap slots) := by
      unfold Fin'.buf; rw [patch_reply]; unfold mkBuf preSlots; rw [hh]; rfl
    have hsend : (f.buf c).send.drop 2 =
        (match c.ver with | .v1 => [] | .v2 => [0x200000F0#32]) ++ f.all.flatMap (enc c.ver) := by
      have h1 := patch_ipbus c (mkBuf c ⟨f.g.k, f.all⟩)
      rw [mkBuf_ipbus] at h1
      unfold ipbusPart at h1
      rw [hh] at h1
      exact h1
    rw [hrep, hsend]
    simp only
    rw [hip]
    cases hubVerdict ip.toNat port.toNat (rd (.hub f.g.k 1)).toNat (rd (.hub f.g.k 2)).toNat <;> rfl

end Verif
