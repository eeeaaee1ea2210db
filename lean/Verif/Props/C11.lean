import Verif.Lemmas.Validate
import Verif.Props.C07
/-!
# C11 reply validation, C25 ControlHub replies

`validateBuf` is the model of the virtual `validate`; `packetVerdict` and `Answers` (`Verif.Spec.Reply`) are
independent descriptions. Quantified over every packet any program can hand to the transport and every
content of the memory the reply was received into (so over every reply content and length).
-/

set_option autoImplicit false

namespace Verif
open Spec
variable {τ : Type} {c : Cfg} {T : Transport τ}

theorem verdict_none_iff (v : Ver) (id : Nat) (ty : Ty) (w : W) : verdict v id ty w = none ↔ HeaderOK v id ty w := by
  unfold verdict HeaderOK
  by_cases h1 : field w 28 4 ≠ verNibble v ∨ tyOf v (field w (tyLow v) (8 - tyLow v)) = none
  · rw [if_pos h1]
    simp only [reduceCtorEq, false_iff]
    rintro ⟨a, b, _⟩
    rcases h1 with h | h
    · exact h a
    · rw [h] at b; cases b
  · rw [if_neg h1]
    by_cases h2 : field w (28 - idBits v) (idBits v) ≠ id ∨ tyOf v (field w (tyLow v) (8 - tyLow v)) ≠ some ty
    · rw [if_pos h2]
      simp only [reduceCtorEq, false_iff]
      rintro ⟨_, b, a, _⟩
      exact h2.elim (fun h => h a) (fun h => h b)
    · rw [if_neg h2]
      simp only [not_or, Decidable.not_not, ne_eq] at h1 h2
      by_cases h3 : field w 0 (infoBits v) = 0
      · simp [h3, h1, h2]
      · simp [h3]

theorem hubVerdict_none_iff (ip port a p : Nat) (hp : p < 2 ^ 32) (hport : port < 2 ^ 16) :
    hubVerdict ip port a p = none ↔ a = ip ∧ p = port := by
  unfold hubVerdict
  by_cases h1 : a = ip
  · by_cases h2 : p % 2 ^ 16 = port
    · simp only [h1, h2, ne_eq, not_true_eq_false, if_false]
      by_cases h3 : p / 2 ^ 24 % 256 + p / 2 ^ 16 % 256 * 256 = 0
      · simp only [h3, if_true, true_and, true_iff]; omega
      · rw [if_neg h3]
        have : ¬ (p = port) := by omega
        simp only [this, and_false, iff_false]
        split <;> simp
    · simp only [h1, ne_eq, not_true_eq_false, if_false, h2, not_false_eq_true, if_true, reduceCtorEq, true_and, false_iff]
      omega
  · simp [h1]

theorem findSome_none_iff {α β : Type} (f : α → Option β) (l : List α) : l.findSome? f = none ↔ ∀ x ∈ l, f x = none := by
  simp

theorem answers_fin {c : Cfg} {f : Fin'} (h : FinOK c f) (rd : Loc → W) :
    Answers c rd (f.buf c) ↔ finVerdict c rd f = none := by
  have hparse := parse_fin h
  have hdrop : (f.buf c).reply.drop (preSlotCount c) = f.all.flatMap slots := by
    unfold Fin'.buf; rw [patch_reply]; unfold mkBuf
    rw [← preSlots_length c f.g.k]; simp
  have hassign := assign_items f.all
  have htx : (∃ id txns l, parsePacket c.ver (ipbusPart c.hub (f.buf c).send) = some (id, txns) ∧
    assign (txns.map Prod.snd) ((f.buf c).reply.drop (preSlotCount c)) = some l ∧
    ∀ q ∈ txns.zip (l.map fun q => q.2.1), HeaderOK c.ver q.1.1 q.1.2.ty (rd q.2)) ↔
      f.all.findSome? (itemVerdict c.ver rd) = none := by
    rw [← verdicts_items, verdicts, findSome_none_iff, hparse, hdrop]
    constructor
    · rintro ⟨id, txns, l, h1, h2, h3⟩
      cases h1
      rw [List.map_map] at h2
      have : (Prod.snd ∘ fun it : Item => (it.cnt % 2 ^ idBits c.ver, it.txn)) = Item.txn := rfl
      rw [this, hassign] at h2
      cases h2
      intro q hq
      exact (verdict_none_iff _ _ _ _).2 (h3 q hq)
    · intro hq
      refine ⟨_, _, _, rfl, ?_, fun q hq' => (verdict_none_iff _ _ _ _).1 (hq q hq')⟩
      rw [List.map_map]
      exact hassign
  have hbuf : (f.buf c).reply = preSlots c f.g.k ++ f.all.flatMap slots := by
    unfold Fin'.buf; rw [patch_reply]; rfl
  have hip : ipbusPart c.hub (f.buf c).send = (match c.ver with | .v1 => [] | .v2 => [0x200000F0#32]) ++
      f.all.flatMap (enc c.ver) := by
    unfold Fin'.buf; rw [patch_ipbus, mkBuf_ipbus]
    cases c.ver <;> rfl
  have hpk : (c.ver = .v2 → ∃ h t p sl, ipbusPart c.hub (f.buf c).send = h :: t ∧
    (f.buf c).reply.drop (if c.hub.isSome then 3 else 0) = p :: sl ∧ rd p.loc = h) ↔ pktV c.ver rd f.g.k = none := by
    rw [hip, hbuf]
    cases hv : c.ver with
    | v1 => simp [pktV]
    | v2 =>
      have : (preSlots c f.g.k ++ f.all.flatMap slots).drop (if c.hub.isSome then 3 else 0) =
          ⟨.pkt f.g.k, 1⟩ :: f.all.flatMap slots := by
        unfold preSlots; rw [hv]; cases c.hub <;> rfl
      rw [this]
      unfold pktV
      simp
  have hhub : (∀ ip port, c.hub = some (ip, port) → ∃ s0 a p sl, (f.buf c).reply = s0 :: a :: p :: sl ∧ rd a.loc = ip ∧
    (rd p.loc).toNat = port.toNat) ↔ hubV c.hub rd f.g.k = none := by
    rw [hbuf]
    cases hh : c.hub with
    | none => simp [hubV]
    | some q =>
      obtain ⟨ip, port⟩ := q
      have hpre : preSlots c f.g.k = ⟨.hub f.g.k 0, 1⟩ :: ⟨.hub f.g.k 1, 1⟩ :: ⟨.hub f.g.k 2, 1⟩ ::
        (match c.ver with | .v1 => [] | .v2 => [⟨.pkt f.g.k, 1⟩]) := by unfold preSlots; rw [hh]; rfl
      unfold hubV
      simp only
      rw [hubVerdict_none_iff _ _ _ _ (rd _).isLt port.isLt, hpre, BitVec.toNat_inj]
      constructor
      · intro hq
        obtain ⟨s0, a, p, sl, h1, h2, h3⟩ := hq ip port rfl
        injection h1 with h1 h4
        injection h4 with h4 h5
        injection h5 with h5 h6
        subst h4; subst h5
        exact ⟨h2, h3⟩
      · rintro ⟨h1, h2⟩ ip' port' hq
        cases hq
        exact ⟨_, _, _, _, rfl, h1, h2⟩
  unfold finVerdict
  rw [Option.or_eq_none_iff, Option.or_eq_none_iff, ← htx, ← hpk, ← hhub]
  constructor
  · rintro ⟨a1, a2, a3⟩; exact ⟨a1, a2, a3⟩
  · rintro ⟨a1, a2, a3⟩; exact ⟨a1, a2, a3⟩

/-- C11. Exact result of `validate` on every packet of every program, for every memory content: the first
complaint of the independent verdict (ControlHub words, packet header, then the transactions in order);
never undefined behaviour. `CapOK`: the IPbus 1.3 send buffer is at least one word larger than the padded
minimal packet; `Roomy`: see `Verif.Lemmas.Client` (`C11_tight_capacity` shows the first is needed). -/
theorem C11_verdict (c : Cfg) (T : Transport τ) (hw : WF c) (hcap : CapOK c) (hr : c.ver = .v2 → Roomy c) (hT : T.Total)
    (ops : List Op) (hops : ∀ op ∈ ops, op.ok c) (t : τ) (rs : List Res) (s : St τ)
    (hrun : runOps c T ops (St.init t) = some (rs, s)) (b : Buf) (hb : b ∈ s.hist) (rd : Loc → W) :
    (packetVerdict c rd b = some none ∧ validateBuf c rd b = .ok) ∨
    ∃ e, packetVerdict c rd b = some (some e) ∧ validateBuf c rd b = .err e := by
  obtain ⟨rs', s', _, _, h1, h2, _⟩ := inv_run hw hT ops hops (Inv.init c t)
  rw [hrun] at h1; cases h1
  obtain ⟨f, hf, rfl⟩ := inv_hist h2 b hb
  rw [packetVerdict_fin hf, validateBuf_fin hw hf hcap hr]
  cases finVerdict c rd f with
  | none => exact .inl ⟨rfl, rfl⟩
  | some e => exact .inr ⟨e, rfl, rfl⟩

/-- C11. No error is reported if and only if every transaction's slot holds a header with the right version,
type, id and a success code, the packet header is the one sent, and the ControlHub words are right. -/
theorem C11_ok_iff (c : Cfg) (T : Transport τ) (hw : WF c) (hcap : CapOK c) (hr : c.ver = .v2 → Roomy c) (hT : T.Total)
    (ops : List Op) (hops : ∀ op ∈ ops, op.ok c) (t : τ) (rs : List Res) (s : St τ)
    (hrun : runOps c T ops (St.init t) = some (rs, s)) (b : Buf) (hb : b ∈ s.hist) (rd : Loc → W) :
    validateBuf c rd b = .ok ↔ Answers c rd b := by
  obtain ⟨rs', s', _, _, h1, h2, _⟩ := inv_run hw hT ops hops (Inv.init c t)
  rw [hrun] at h1; cases h1
  obtain ⟨f, hf, rfl⟩ := inv_hist h2 b hb
  rw [validateBuf_fin hw hf hcap hr, answers_fin hf]
  cases finVerdict c rd f <;> simp [VOut.of]

/-- C11. The check never looks outside the request or the reply slots. -/
theorem C11_no_ub (c : Cfg) (T : Transport τ) (hw : WF c) (hcap : CapOK c) (hr : c.ver = .v2 → Roomy c) (hT : T.Total)
    (ops : List Op) (hops : ∀ op ∈ ops, op.ok c) (t : τ) (rs : List Res) (s : St τ)
    (hrun : runOps c T ops (St.init t) = some (rs, s)) (b : Buf) (hb : b ∈ s.hist) (rd : Loc → W) :
    validateBuf c rd b ≠ .ub := by
  rcases C11_verdict c T hw hcap hr hT ops hops t rs s hrun b hb rd with ⟨_, h⟩ | ⟨e, _, h⟩ <;> rw [h] <;> simp

/-- C11. The result only depends on the words in the reply slots of the packet. -/
theorem C11_local (c : Cfg) (T : Transport τ) (hw : WF c) (hcap : CapOK c) (hr : c.ver = .v2 → Roomy c) (hT : T.Total)
    (ops : List Op) (hops : ∀ op ∈ ops, op.ok c) (t : τ) (rs : List Res) (s : St τ)
    (hrun : runOps c T ops (St.init t) = some (rs, s)) (b : Buf) (hb : b ∈ s.hist) (rd rd' : Loc → W)
    (hsame : ∀ sl ∈ b.reply, rd sl.loc = rd' sl.loc) : validateBuf c rd b = validateBuf c rd' b := by
  obtain ⟨rs', s', _, _, h1, h2, _⟩ := inv_run hw hT ops hops (Inv.init c t)
  rw [hrun] at h1; cases h1
  obtain ⟨f, hf, rfl⟩ := inv_hist h2 b hb
  rw [validateBuf_fin hw hf hcap hr, validateBuf_fin hw hf hcap hr]
  congr 1
  have hbuf : (f.buf c).reply = preSlots c f.g.k ++ f.all.flatMap slots := by
    unfold Fin'.buf; rw [patch_reply]; rfl
  rw [hbuf] at hsame
  unfold finVerdict
  have e1 : hubV c.hub rd f.g.k = hubV c.hub rd' f.g.k := by
    cases hh : c.hub with
    | none => rfl
    | some q =>
      unfold hubV
      simp only
      rw [hsame ⟨.hub f.g.k 1, 1⟩ (by simp [preSlots, hh]), hsame ⟨.hub f.g.k 2, 1⟩ (by simp [preSlots, hh])]
  have e2 : pktV c.ver rd f.g.k = pktV c.ver rd' f.g.k := by
    cases hv : c.ver with
    | v1 => rfl
    | v2 => unfold pktV; simp only; rw [hsame ⟨.pkt f.g.k, 1⟩ (by simp [preSlots, hv])]
  have e3 : f.all.findSome? (itemVerdict c.ver rd) = f.all.findSome? (itemVerdict c.ver rd') := by
    have : ∀ it ∈ f.all, itemVerdict c.ver rd it = itemVerdict c.ver rd' it := by
      intro it hit
      unfold itemVerdict
      rw [hsame ⟨.hdr it.obj it.hk, 1⟩]
      rw [List.mem_append]; right
      rw [List.mem_flatMap]; exact ⟨it, hit, by simp [slots]⟩
    generalize f.all = l at this
    induction l with
    | nil => rfl
    | cons a l ih =>
      rw [List.findSome?_cons, List.findSome?_cons, this a (by simp), ih (fun x hx => this x (by simp [hx]))]
  rw [e1, e2, e3]

theorem demoCap (v : Ver) : CapOK (demoCfg v) := by intro _; cases v <;> decide
theorem demoHubCap (v : Ver) : CapOK (demoHub v) := by intro _; cases v <;> decide
theorem demoRoomy (v : Ver) : Roomy (demoCfg v) := by constructor <;> cases v <;> decide
theorem demoHubRoomy (v : Ver) : Roomy (demoHub v) := by constructor <;> cases v <;> decide

/-- The buffers of a program. -/
def histOf (c : Cfg) (ops : List Op) : Option (List Buf) := (runOps c demoTr ops (St.init [])).map fun p => p.2.hist

/-- Memory given by a list. -/
def memOf (l : List (Loc × W)) : Loc → W := fun a => ((l.find? fun p => p.1 = a).map Prod.snd).getD 0

/-- Non-vacuity: the packet of a write and a read, with a matching reply, a reply with an error code in the
second header, a wrong id, and a wrong packet header. -/
example : (histOf (demoCfg .v2) [.write 0x10 1, .read 0x11, .dispatch]).map (List.map fun b =>
    [validateBuf (demoCfg .v2) (memOf [(.pkt 0, 0x200000F0), (.hdr 0 0, 0x20000110), (.hdr 1 0, 0x20010100)]) b,
     validateBuf (demoCfg .v2) (memOf [(.pkt 0, 0x200000F0), (.hdr 0 0, 0x20000110), (.hdr 1 0, 0x20010104)]) b,
     validateBuf (demoCfg .v2) (memOf [(.pkt 0, 0x200000F0), (.hdr 0 0, 0x20070110), (.hdr 1 0, 0x20010104)]) b,
     validateBuf (demoCfg .v2) (memOf [(.pkt 0, 0x200001F0), (.hdr 0 0, 0x20000110), (.hdr 1 0, 0x20010100)]) b]) =
    some [[.ok, .err (.responseCode 4), .err .fieldsIncorrect, .err .packetHeader]] := by decide +kernel

example (rs : List Res) (s : St (List Bool))
    (h : runOps (demoCfg .v2) demoTr [.write 0x10 1, .read 0x11, .dispatch] (St.init []) = some (rs, s)) (b : Buf) (hb : b ∈ s.hist)
    (rd : Loc → W) :=
  C11_ok_iff (demoCfg .v2) demoTr (demoCfg_wf _) (demoCap _) (fun _ => demoRoomy _) demoTr_total _ (by simp [Op.ok]) [] rs s h b hb rd

/-- The capacity condition is needed: an IPbus 1.3 client whose send buffer is exactly the padded minimal
packet reads behind the allocation when it reports a bad reply to the last padding transaction. -/
theorem C11_tight_capacity : WF ⟨.v1, none, 32, 100, true⟩ ∧
    ((histOf ⟨.v1, none, 32, 100, true⟩ [.read 0x11, .dispatch]).map (List.map fun b =>
      validateBuf ⟨.v1, none, 32, 100, true⟩ (memOf [(.hdr 0 0, 0x100000FC), (.hdr 1 0, 0x1002011C), (.hdr 2 0, 0x100000FC),
        (.hdr 3 0, 0x100000FC), (.hdr 4 0, 0x100000FC), (.hdr 5 0, 0x100000FC)]) b)) = some [.ub] := by
  refine ⟨⟨by decide, fun _ => by decide, by decide⟩, ?_⟩
  decide +kernel

/-- Finding: an IPbus 1.3 reply is only tested for the two low bits of the info code, so a device (or switch)
that echoes the request header, which is flagged as a request, counts as a success. -/
theorem C11_v1_echo (id : Nat) (hid : id < 2 ^ 11) (ty : Ty) (wc : W) (h : W)
    (hc : calcHeader .v1 ty wc (BitVec.ofNat 32 id) (reqInfo .v1) = some h) : HeaderOK .v1 id ty h := by
  obtain ⟨h1, h2, h3, h4, h5⟩ := calcHeader_fields hc
  refine ⟨h1, tyOf_wireCode h2, ?_, ?_⟩
  · rw [h4, BitVec.toNat_ofNat]; simp only [idBits]; omega
  · simp only [tyLow, reqInfo] at h5
    simp only [infoBits]
    unfold field at h5 ⊢
    simp at h5
    omega

/-! ### C25 -/

/-- C25. Address, port or error code of the ControlHub's answer are wrong: the corresponding exception, and no
object becomes valid. All addresses, ports and codes; whatever the IPbus part of the reply says. -/
theorem C25_wrong (c : Cfg) (T : Transport τ) (hw : WF c) (hT : T.Total)
    (ip : W) (port : BitVec 16) (hh : c.hub = some (ip, port))
    (ops : List Op) (hops : ∀ op ∈ ops, op.ok c) (t : τ) (rs : List Res) (s : St τ)
    (hrun : runOps c T ops (St.init t) = some (rs, s)) (b : Buf) (hb : b ∈ s.hist) (h : Heap) :
    ∃ s0 a p sl, b.reply = s0 :: a :: p :: sl ∧
      let code := field (h.word p.loc) 24 8 + 256 * field (h.word p.loc) 16 8
      (h.word a.loc ≠ ip → clientValidate c h b = (.err .hubAddress, h)) ∧
      (field (h.word p.loc) 0 16 ≠ port.toNat → clientValidate c h b = (.err .hubAddress, h)) ∧
      (h.word a.loc = ip → field (h.word p.loc) 0 16 = port.toNat → code = 1 ∨ code = 3 ∨ code = 4 →
        clientValidate c h b = (.err .hubTimeout, h)) ∧
      (h.word a.loc = ip → field (h.word p.loc) 0 16 = port.toNat → code ≠ 0 → ¬ (code = 1 ∨ code = 3 ∨ code = 4) →
        clientValidate c h b = (.err .hubError, h)) ∧
      (h.word a.loc = ip → field (h.word p.loc) 0 16 = port.toNat → code = 0 →
        validateBuf c h.word b = ipbusValidate c.ver h.word (c.maxSend.toNat / 4 - 2) (b.send.drop 2) sl) := by
  obtain ⟨rs', s', _, _, h1, h2, _⟩ := inv_run hw hT ops hops (Inv.init c t)
  rw [hrun] at h1; cases h1
  obtain ⟨f, hf, rfl⟩ := inv_hist h2 b hb
  have hrep : (f.buf c).reply = ⟨.hub f.g.k 0, 1⟩ :: ⟨.hub f.g.k 1, 1⟩ :: ⟨.hub f.g.k 2, 1⟩ ::
      ((match c.ver with | .v1 => [] | .v2 => [⟨.pkt f.g.k, 1⟩]) ++ f.all.flatMap slots) := by
    unfold Fin'.buf; rw [patch_reply]; unfold mkBuf preSlots; rw [hh]; rfl
  refine ⟨_, _, _, _, hrep, ?_⟩
  have hv : validateBuf c h.word (f.buf c) =
      match hubVerdict ip.toNat port.toNat (h.word (.hub f.g.k 1)).toNat (h.word (.hub f.g.k 2)).toNat with
      | some e => .err e
      | none => ipbusValidate c.ver h.word (c.maxSend.toNat / 4 - 2) ((f.buf c).send.drop 2)
          ((match c.ver with | .v1 => [] | .v2 => [⟨.pkt f.g.k, 1⟩]) ++ f.all.flatMap slots) := by
    unfold validateBuf
    rw [hh]
    simp only
    unfold hubValidate
    rw [hrep]
    simp only [Nat.one_ne_zero, or_self, if_false]
    rw [hub_check]
    cases hubVerdict ip.toNat port.toNat (h.word (.hub f.g.k 1)).toNat (h.word (.hub f.g.k 2)).toNat <;> rfl
  have hcode : field (h.word (.hub f.g.k 2)) 24 8 + 256 * field (h.word (.hub f.g.k 2)) 16 8 =
      (h.word (.hub f.g.k 2)).toNat / 2 ^ 24 % 256 + (h.word (.hub f.g.k 2)).toNat / 2 ^ 16 % 256 * 256 := by
    unfold field; omega
  have hport : field (h.word (.hub f.g.k 2)) 0 16 = (h.word (.hub f.g.k 2)).toNat % 2 ^ 16 := by
    unfold field; simp
  simp only [hcode, hport]
  unfold clientValidate
  rw [hv]
  unfold hubVerdict
  have hA : h.word (.hub f.g.k 1) = ip ↔ (h.word (.hub f.g.k 1)).toNat = ip.toNat := BitVec.toNat_inj.symm
  simp only [ne_eq, hA]
  generalize (h.word (.hub f.g.k 2)).toNat / 2 ^ 24 % 256 + (h.word (.hub f.g.k 2)).toNat / 2 ^ 16 % 256 * 256 = code
  refine ⟨?_, ?_, ?_, ?_, ?_⟩
  · intro h1; simp only [if_pos h1]
  · intro h1
    by_cases h2 : (h.word (.hub f.g.k 1)).toNat ≠ ip.toNat
    · simp only [if_pos h2]
    · simp only [if_neg h2, if_pos h1]
  · intro h1 h2 h3
    have : code ≠ 0 := by omega
    simp only [h1, h2, not_true_eq_false, if_false, if_neg this, if_pos h3]
  · intro h1 h2 h3 h4
    simp only [h1, h2, not_true_eq_false, if_false, if_neg h3, if_neg h4]
  · intro h1 h2 h3
    simp only [h1, h2, not_true_eq_false, if_false, if_pos h3]

/-- Non-vacuity: right answer, wrong address, wrong port, timeout code 3, other code 2. -/
example : (histOf (demoHub .v2) [.read 0x11, .dispatch]).map (List.map fun b =>
    [(0x0100000A, 0x000051C3), (0x0200000A, 0x000051C3), (0x0100000A, 0x000051C4), (0x0100000A, 0x030051C3),
      (0x0100000A, 0x020051C3)].map fun (p : W × W) =>
      validateBuf (demoHub .v2) (memOf [(.hub 0 1, p.1), (.hub 0 2, p.2), (.pkt 0, 0x200000F0), (.hdr 0 0, 0x20000100)]) b) =
    some [[.ok, .err .hubAddress, .err .hubAddress, .err .hubTimeout, .err .hubError]] := by decide +kernel

end Verif
