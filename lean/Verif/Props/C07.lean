import Verif.Lemmas.Demo
/-!
# C07 packet size limits, C10 minimum length in IPbus 1.3, C24 ControlHub preamble

All for every program of calls and every transport behaviour (see `Verif.Props.C08`).
-/

set_option autoImplicit false

namespace Verif
open Spec
variable {τ : Type} {c : Cfg}

theorem preSend_length (c : Cfg) : (preSend c).length + (match c.ver with | .v1 => 1 | .v2 => 0) = c.preambleSize := by
  unfold preSend Cfg.preambleSize
  cases c.hub <;> cases c.ver <;> rfl

theorem preSlots_words (c : Cfg) (k : Nat) :
    ((preSlots c k).map Slot.len).sum + (match c.ver with | .v1 => 1 | .v2 => 0) = c.preReply := by
  unfold preSlots Cfg.preReply
  cases c.hub <;> cases c.ver <;> rfl

theorem padItems_enc_length (v : Ver) (o n : Nat) : ((padItems o n).flatMap (enc v)).length = n := by
  induction n generalizing o with
  | zero => rfl
  | succ n ih => simp [padItems, List.flatMap_cons, ih, enc, txArgs]

theorem padItems_replyLen (o n : Nat) : ((padItems o n).map replyLen).sum = n := by
  induction n generalizing o with
  | zero => rfl
  | succ n ih => simp [padItems, ih, replyLen, txData]; omega

theorem patch_length (c : Cfg) (b : Buf) : (patch c b).send.length = b.send.length ∧ (patch c b).reply = b.reply := by
  unfold patch; cases c.hub <;> simp

/-- Length of a finished packet: the unpadded packet plus the padding. -/
theorem fin_sizes (c : Cfg) (f : Fin') :
    (f.buf c).send.length = (mkBuf c f.g).send.length + f.np ∧
    (f.buf c).replyWords = (mkBuf c f.g).replyWords + f.np := by
  obtain ⟨h1, h2⟩ := patch_length c (mkBuf c ⟨f.g.k, f.all⟩)
  constructor
  · show (patch c (mkBuf c ⟨f.g.k, f.all⟩)).send.length = _
    rw [h1, mkBuf_sendLen, mkBuf_sendLen]
    simp only [Fin'.all, List.flatMap_append, List.length_append, padItems_enc_length]; omega
  · have : (f.buf c).replyWords = (mkBuf c ⟨f.g.k, f.all⟩).replyWords := by
      unfold Buf.replyWords Fin'.buf; rw [h2]
    rw [this, mkBuf_replyWords, mkBuf_replyWords]
    simp only [Fin'.all, List.map_append, List.sum_append, padItems_replyLen]; omega

theorem fin_bounds (hw : WF c) {f : Fin'} (h : FinOK c f) :
    4 * (f.buf c).send.length ≤ c.maxSend.toNat ∧
    (c.ver = .v2 → 4 * (f.buf c).replyWords ≤ c.maxReply.toNat) ∧
    4 * (f.buf c).replyWords ≤ c.maxReply.toNat + 20 ∧
    (c.ver = .v1 → 7 + c.preambleSize ≤ (f.buf c).send.length) := by
  obtain ⟨e1, e2⟩ := fin_sizes c f
  have hs := h.grp.fitS
  have hr := h.grp.fitR
  have hnp := h.np
  have hwr := hw.reply
  rw [e1, e2]
  cases hv : c.ver with
  | v2 =>
    simp only [padCount, hv] at hnp
    rw [hnp]
    exact ⟨by omega, fun _ => by omega, by omega, by simp⟩
  | v1 =>
    simp only [padCount, hv] at hnp
    have hp := hw.pad hv
    refine ⟨by omega, by simp, ?_, fun _ => by omega⟩
    -- at least the byte-order transaction; with any further transaction at most five words of padding
    have hshape := h.grp.shape
    rw [hv] at hshape
    obtain ⟨n, o, us, hus, hub⟩ := hshape
    have hl : (mkBuf c f.g).send.length = c.preambleSize + (us.flatMap (enc c.ver)).length := by
      rw [mkBuf_sendLen, hus, ← preSend_length c, hv]
      simp [List.flatMap_cons, enc, txArgs]; omega
    have hrl : (mkBuf c f.g).replyWords = c.preReply + (us.map replyLen).sum := by
      rw [mkBuf_replyWords, hus, ← preSlots_words c f.g.k, hv]
      simp [replyLen, txData]; omega
    cases us with
    | nil => simp at hl hrl; omega
    | cons it us =>
      have : 2 ≤ (((it :: us).flatMap (enc c.ver)).length) := by
        rw [List.flatMap_cons, List.length_append, enc_length]
        have hb := hub it (by simp)
        have : 1 ≤ (txArgs it.txn).length := by
          cases ht : it.txn <;> simp_all [txArgs]
        omega
      omega

theorem inv_hist {s : St τ} (hI : Inv c s) : ∀ b ∈ s.hist, ∃ f, FinOK c f ∧ b = f.buf c := by
  obtain ⟨fs, G, hR⟩ := hI
  intro b hb
  rw [hR.rep.hist, hR.base, ← List.map_append, List.mem_map] at hb
  obtain ⟨f, hf, rfl⟩ := hb
  rw [List.mem_append] at hf
  exact ⟨f, hf.elim (hR.fin f) (hR.rep.doneOK f), rfl⟩

/-- C07. Every packet handed to the transport, after every program: not longer than `getMaxSendSize()`; the
expected reply is not longer than `getMaxReplySize()` in IPbus 2.0 and exceeds it by at most 20 bytes in
IPbus 1.3 (the padding is added without looking at the reply size), which is exactly the reserve of the
UDP client's reply memory (ProtocolUDP.cpp:92). -/
theorem C07_dispatched (c : Cfg) (T : Transport τ) (hw : WF c) (hT : T.Total) (ops : List Op)
    (hops : ∀ op ∈ ops, op.ok c) (t : τ) (rs : List Res) (s : St τ)
    (hrun : runOps c T ops (St.init t) = some (rs, s)) (b : Buf) (hb : b ∈ s.hist) :
    4 * b.send.length ≤ c.maxSend.toNat ∧
    (c.ver = .v2 → 4 * b.replyWords ≤ c.maxReply.toNat) ∧ 4 * b.replyWords ≤ c.maxReply.toNat + 20 := by
  obtain ⟨rs', s', _, _, h1, h2, _⟩ := inv_run hw hT ops hops (Inv.init c t)
  rw [hrun] at h1; cases h1
  obtain ⟨f, hf, rfl⟩ := inv_hist h2 b hb
  have := fin_bounds hw hf
  exact ⟨this.1, this.2.1, this.2.2.1⟩

/-- C07. The packet being filled respects both limits at every moment. -/
theorem C07_current (c : Cfg) (T : Transport τ) (hw : WF c) (hT : T.Total) (ops : List Op)
    (hops : ∀ op ∈ ops, op.ok c) (t : τ) (rs : List Res) (s : St τ)
    (hrun : runOps c T ops (St.init t) = some (rs, s)) (b : Buf) (hb : s.cur = some b) :
    4 * b.send.length ≤ c.maxSend.toNat ∧ 4 * b.replyWords ≤ c.maxReply.toNat := by
  obtain ⟨rs', s', _, _, h1, ⟨fs, G, hR⟩, _⟩ := inv_run hw hT ops hops (Inv.init c t)
  rw [hrun] at h1; cases h1
  rw [hR.rep.cur] at hb
  cases hc : G.cur with
  | none => rw [hc] at hb; simp at hb
  | some g =>
    rw [hc] at hb
    cases hb
    have := hR.rep.curOK g hc
    exact ⟨this.fitS, this.fitR⟩

/-- C07. The five words of slack are needed: an IPbus 1.3 block read of 348 words on the default packet
size makes a packet whose reply is 1420 bytes, more than `getMaxReplySize()` = 1400. -/
theorem C07_v1_reply_can_exceed : ∃ rs s, runOps (demoCfg .v1) demoTr [.readBlock 0 348 true, .dispatch] (St.init []) =
    some (rs, s) ∧ ∃ b ∈ s.hist, 4 * b.replyWords = (demoCfg .v1).maxReply.toNat + 20 := by
  have h : ((runOps (demoCfg .v1) demoTr [.readBlock 0 348 true, .dispatch] (St.init [])).map fun p =>
      p.2.hist.map fun b => 4 * b.replyWords) = some [1420] := by decide +kernel
  rw [Option.map_eq_some_iff] at h
  obtain ⟨⟨rs, s⟩, h1, h2⟩ := h
  refine ⟨rs, s, h1, ?_⟩
  simp only at h2
  obtain ⟨b, hb, hr⟩ : ∃ b ∈ s.hist, 4 * b.replyWords = 1420 := by
    have : 1420 ∈ s.hist.map fun b => 4 * b.replyWords := by rw [h2]; simp
    rw [List.mem_map] at this
    exact this
  exact ⟨b, hb, hr⟩

example := C07_dispatched (demoCfg .v1) demoTr (demoCfg_wf _) demoTr_total
  [.read 1, .readBlock 0 1000 true, .dispatch] (by simp [Op.ok]) [false, true]

/-- C10. Every IPbus 1.3 packet handed to the transport has at least eight words after the ControlHub
preamble, and parses to one byte-order transaction, then transactions of other types, then only
byte-order transactions with id 0 (which expect no data). -/
theorem C10_min_length (c : Cfg) (T : Transport τ) (hw : WF c) (hT : T.Total) (hv : c.ver = .v1) (ops : List Op)
    (hops : ∀ op ∈ ops, op.ok c) (t : τ) (rs : List Res) (s : St τ)
    (hrun : runOps c T ops (St.init t) = some (rs, s)) (b : Buf) (hb : b ∈ s.hist) :
    8 ≤ (ipbusPart c.hub b.send).length ∧
    ∃ id us n, parsePacket .v1 (ipbusPart c.hub b.send) = some (0, (id, .bot) :: us ++ List.replicate n (0, .bot)) ∧
      ∀ u ∈ us, u.2 ≠ .bot := by
  obtain ⟨rs', s', _, _, h1, h2, _⟩ := inv_run hw hT ops hops (Inv.init c t)
  rw [hrun] at h1; cases h1
  obtain ⟨f, hf, rfl⟩ := inv_hist h2 b hb
  have hlen := (fin_bounds hw hf).2.2.2 hv
  constructor
  · unfold Cfg.preambleSize at hlen
    unfold ipbusPart
    cases hh : c.hub <;> simp [hh] at hlen ⊢ <;> omega
  · have hp := parse_fin hf
    rw [hv] at hp
    have hshape := hf.grp.shape
    rw [hv] at hshape
    obtain ⟨n, o, us, hus, hub⟩ := hshape
    refine ⟨n % 2 ^ idBits .v1, us.map (fun it => (it.cnt % 2 ^ idBits .v1, it.txn)), f.np, ?_, ?_⟩
    · rw [hp, Fin'.all, hus]
      have hpad : ∀ o n, (padItems o n).map (fun it => (it.cnt % 2 ^ idBits .v1, it.txn)) = List.replicate n (0, Txn.bot) := by
        intro o n
        induction n generalizing o with
        | zero => rfl
        | succ n ih => rw [padItems, List.map_cons, ih, List.replicate_succ]; rfl
      simp [hpad]
    · intro u hu
      rw [List.mem_map] at hu
      obtain ⟨it, hit, rfl⟩ := hu
      exact hub it hit

example := C10_min_length (demoHub .v1) demoTr (demoHub_wf _) demoTr_total rfl
  [.read 1, .dispatch] (by simp [Op.ok]) []

/-- C24. Every packet handed to a ControlHub: first the target's IP address; then a word whose first two
bytes are the port and whose last two bytes, most significant first, are the number of words that follow;
the reply starts with three one-word slots of one preamble: byte count, address, port and error code. -/
theorem C24_preamble (c : Cfg) (T : Transport τ) (hw : WF c) (hT : T.Total) (ip : W) (port : BitVec 16)
    (hh : c.hub = some (ip, port)) (hmax : c.maxSend.toNat < 4 * 2 ^ 16) (ops : List Op)
    (hops : ∀ op ∈ ops, op.ok c) (t : τ) (rs : List Res) (s : St τ)
    (hrun : runOps c T ops (St.init t) = some (rs, s)) (b : Buf) (hb : b ∈ s.hist) :
    (∃ w body, b.send = ip :: w :: body ∧ field w 0 16 = port.toNat ∧
      field w 16 8 * 256 + field w 24 8 = body.length) ∧
    ∃ k sl, b.reply = ⟨.hub k 0, 1⟩ :: ⟨.hub k 1, 1⟩ :: ⟨.hub k 2, 1⟩ :: sl := by
  obtain ⟨rs', s', _, _, h1, h2, _⟩ := inv_run hw hT ops hops (Inv.init c t)
  rw [hrun] at h1; cases h1
  obtain ⟨f, hf, rfl⟩ := inv_hist h2 b hb
  have hlen := (fin_bounds hw hf).1
  constructor
  · obtain ⟨body, hbody⟩ : ∃ body, (mkBuf c ⟨f.g.k, f.all⟩).send = ip :: port.setWidth 32 :: body := by
      unfold mkBuf preSend; rw [hh]; exact ⟨_, rfl⟩
    have hl2 : (f.buf c).send.length = body.length + 2 := by
      unfold Fin'.buf; rw [(patch_length c _).1, hbody]; rfl
    have hsend : (f.buf c).send = ip :: (port.setWidth 32 ||| (bswap16 (((BitVec.ofNat 32
        (4 * (ip :: BitVec.setWidth 32 port :: body).length) - 8#32) >>> 2).setWidth 16)).setWidth 32 <<< 16) :: body := by
      unfold Fin'.buf patch; rw [hh]; simp only [hbody]; rfl
    refine ⟨_, body, hsend, ?_⟩
    · have hn : ((BitVec.ofNat 32 (4 * (ip :: BitVec.setWidth 32 port :: body).length) - 8#32) >>> 2).setWidth 16 =
          BitVec.ofNat 16 body.length := by
        apply BitVec.eq_of_toNat_eq
        simp only [BitVec.toNat_setWidth, BitVec.toNat_ushiftRight, BitVec.toNat_sub, BitVec.toNat_ofNat,
          Nat.shiftRight_eq_div_pow, List.length_cons]
        omega
      rw [hn]
      have hb16 : body.length < 2 ^ 16 := by omega
      have hp := port.isLt
      have key : ∀ (p n : Nat), p < 2 ^ 16 → n < 2 ^ 16 →
          ((BitVec.ofNat 16 p).setWidth 32 ||| (bswap16 (BitVec.ofNat 16 n)).setWidth 32 <<< 16 : W).toNat
            = p + 65536 * (n % 256 * 256 + n / 256) := by
        intro p n hp hn
        have hb : (bswap16 (BitVec.ofNat 16 n)).toNat = n % 256 * 256 + n / 256 := by
          unfold bswap16
          rw [BitVec.toNat_or, BitVec.toNat_shiftLeft, BitVec.toNat_ushiftRight, BitVec.toNat_ofNat,
            Nat.mod_eq_of_lt hn, Nat.shiftRight_eq_div_pow, Nat.shiftLeft_eq]
          have e : n * 2 ^ 8 % 2 ^ 16 = 2 ^ 8 * (n % 256) := by omega
          rw [e, ← Nat.two_pow_add_eq_or_of_lt (by omega)]; omega
        rw [BitVec.toNat_or, BitVec.toNat_shiftLeft, BitVec.toNat_setWidth, BitVec.toNat_setWidth, hb,
          BitVec.toNat_ofNat, Nat.shiftLeft_eq, Nat.or_comm]
        have e : (n % 256 * 256 + n / 256) % 2 ^ 32 * 2 ^ 16 % 2 ^ 32 = 2 ^ 16 * (n % 256 * 256 + n / 256) := by omega
        have e2 : p % 2 ^ 16 % 2 ^ 32 = p := by omega
        rw [e, e2, ← Nat.two_pow_add_eq_or_of_lt hp]; omega
      have hk := key port.toNat body.length hp hb16
      rw [BitVec.ofNat_toNat, BitVec.setWidth_eq] at hk
      unfold field
      rw [hk]
      clear hk key hn hsend
      obtain ⟨q, r, hr, hq⟩ : ∃ q r, r < 256 ∧ body.length = 256 * q + r :=
        ⟨body.length / 256, body.length % 256, by omega, by omega⟩
      have e1 : body.length % 256 = r := by omega
      have e2 : body.length / 256 = q := by omega
      rw [e1, e2]
      constructor
      · omega
      · have h1 : (port.toNat + 65536 * (r * 256 + q)) / 2 ^ 16 = r * 256 + q := by omega
        have h2 : (port.toNat + 65536 * (r * 256 + q)) / 2 ^ 24 = r := by omega
        have hq' : q < 256 := by omega
        have h3 : (r * 256 + q) % 2 ^ 8 = q := by omega
        have h4 : r % 2 ^ 8 = r := by omega
        rw [h1, h2, h3, h4, hq]; omega
  · have : (f.buf c).reply = (mkBuf c ⟨f.g.k, f.all⟩).reply := (patch_length c _).2
    rw [this]
    unfold mkBuf preSlots; rw [hh]
    exact ⟨f.g.k, _, rfl⟩

example := C24_preamble (demoHub .v2) demoTr (demoHub_wf _) demoTr_total 0x0100000A 0x51C3 rfl (by decide)
  [.read 1, .writeBlock 0 [1, 2, 3] false, .dispatch] (by simp [Op.ok]) []

end Verif
