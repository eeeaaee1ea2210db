import Verif.Lemmas.ChunkHub
import Verif.Lemmas.Decent
import Verif.Props.C07
import Verif.Props.C16
/-!
# C51: client and ControlHub understand each other

See `/verif/properties.jsonl` and `DESIGN.md`. The client is the model of `Verif/Model/Client.lean` and `Verif/Model/Tcp.lean`, the
ControlHub that of `Verif/Model/TraMgr.lean` and `Verif/Model/Hub.lean`; the theorems connect the words that the one has in memory with
the bytes that the other one takes apart. Together they show that a ControlHub (not only the simple one of `viaHub`, over which C16 is
proved) answers a packet as `viaHub` does, or with an error code.
-/

set_option autoImplicit false
set_option linter.unusedSimpArgs false

namespace Verif
open Spec
open Verif.Hub (Bytes controlRequests Prompt)
open Verif.Spec.Hub (be)
open Verif.TraMgr (World WEv bins Chunk)

/-- The packet of a buffer, without the preamble for the ControlHub, as it is on the wire. -/
def pktBytes (b : Buf) : Bytes := wordBytes (b.send.drop 2)

/-- The words of an answer with an error code. -/
def errorWords (ip : W) (port code : BitVec 16) : List W := [htonl 8#32, ip, portCode port code]

section
variable {τ : Type} {c : Cfg} {ip : W} {port : BitVec 16}

theorem fin_pkt (hw : WF c) (hh : c.hub = some (ip, port)) (hmax : c.maxSend.toNat < 4 * 2 ^ 16) {f : Fin'} (hf : FinOK c f) :
    Spec.Hub.Whole (pktBytes (f.buf c)) ∧ (c.ver = .v2 → Spec.Hub.Control (pktBytes (f.buf c))) := by
  constructor
  · have := (fin_bounds hw hf).1
    simp only [Spec.Hub.Whole, pktBytes, wordBytes_length, List.length_drop]
    omega
  · intro hv
    have h1 : (f.buf c).send.drop 2 = 0x200000F0#32 :: f.all.flatMap (enc c.ver) := by
      have h2 := mkBuf_ipbus c f.g.k f.all
      have h3 := patch_ipbus c (mkBuf c ⟨f.g.k, f.all⟩)
      rw [h2, hv] at h3
      unfold ipbusPart at h3
      rw [hh] at h3
      rw [hv]
      exact h3
    right
    rw [pktBytes, h1]
    exact ⟨rfl, rfl⟩

/-- One packet in a message. -/
theorem send_bytes {b : Buf} (h : ∃ w body, b.send = ip :: w :: body ∧ field w 0 16 = port.toNat ∧
      field w 16 8 * 256 + field w 24 8 = body.length) :
    wordBytes b.send = be 4 (hubAddr ip port).ip ++ be 2 (hubAddr ip port).port ++ be 2 ((pktBytes b).length / 4) ++ pktBytes b := by
  obtain ⟨w, body, h1, h2, h3⟩ := h
  have hp : pktBytes b = wordBytes body := by rw [pktBytes, h1]; rfl
  have hl : (pktBytes b).length / 4 = body.length := by rw [hp, wordBytes_length]; omega
  rw [hl, hp, h1, wordBytes_cons, wordBytes_cons, leBytes_be ip, leBytes_halves w port _ h2 h3]
  simp only [hubAddr, List.append_assoc]

/-- **C51, requests.** Packets of a program that are written to the socket as one chunk: the ControlHub takes the message off the stream and
reads from it the address of the target and exactly the packets of the client, in their order. Every packet is well-formed for the
ControlHub; in IPbus 2.0 it is a control packet. -/
theorem C51_request (c : Cfg) (T : Transport τ) (hw : WF c) (hT : T.Total) (ip : W) (port : BitVec 16)
    (hh : c.hub = some (ip, port)) (hmax : c.maxSend.toNat < 4 * 2 ^ 16) (ops : List Op)
    (hops : ∀ op ∈ ops, op.ok c) (t : τ) (rs : List Res) (s : St τ)
    (hrun : runOps c T ops (St.init t) = some (rs, s)) (bs : List Buf) (hb : ∀ b ∈ bs, b ∈ s.hist)
    (hlen : 4 * (mkFrame bs).words.length < 2 ^ 32) (rest : Bytes) :
    TraMgr.packet4 ((mkFrame bs).bytes ++ rest) =
      some (Spec.Hub.request (hubAddr ip port).ip (hubAddr ip port).port (bs.map pktBytes), rest) ∧
    ∀ b ∈ bs, Spec.Hub.Whole (pktBytes b) ∧ (c.ver = .v2 → Spec.Hub.Control (pktBytes b)) := by
  have hreq : Spec.Hub.request (hubAddr ip port).ip (hubAddr ip port).port (bs.map pktBytes) = wordBytes (mkFrame bs).words := by
    simp only [mkFrame, wordBytes_flatMap, Spec.Hub.request, List.flatMap_map]
    simp only [List.flatMap]
    congr 1
    apply List.map_congr_left
    intro b hb'
    exact (send_bytes (C24_preamble c T hw hT ip port hh hmax ops hops t rs s hrun b (hb b hb')).1).symm
  constructor
  · have hl : (wordBytes (mkFrame bs).words).length = 4 * (mkFrame bs).words.length := wordBytes_length _
    rw [hreq, TcpFrame.bytes, wordBytes_cons, leBytes_htonl, mkFrame_count, BitVec.toNat_ofNat, Nat.mod_eq_of_lt hlen, ← hl]
    exact packet4_append _ _ (by omega)
  · intro b hb'
    obtain ⟨rs', s', _, _, h1, h2, _⟩ := inv_run hw hT ops hops (Inv.init c t)
    rw [hrun] at h1; cases h1
    obtain ⟨f, hf, rfl⟩ := inv_hist h2 b (hb b hb')
    exact fin_pkt hw hh hmax hf

example := C51_request (demoHub .v2) demoTr (demoHub_wf _) demoTr_total 0x0100000A 0x51C3 rfl (by decide)
  [.read 1, .writeBlock 0 [1, 2, 3] false, .dispatch] (by simp [Op.ok]) []

/-- A concrete message. -/
example : ((runOps (demoHub .v2) demoTr [.read 1, .dispatch] (St.init [])).map fun p => (mkFrame p.2.hist).bytes) =
    some [0, 0, 0, 20, 10, 0, 0, 1, 0xC3, 0x51, 0, 3, 0xF0, 0, 0, 0x20, 0x0F, 1, 0, 0x20, 1, 0, 0, 0] := by decide +kernel

/-- **C51, answers.** The message of the ControlHub, as the client has it in memory: three words before the data of each answer. All error
codes, all data. -/
theorem C51_reply (ip : W) (port : BitVec 16) (l : List (BitVec 16 × List W)) :
    Spec.Hub.reply (hubAddr ip port).ip (hubAddr ip port).port (l.map fun x => ⟨x.1.toNat, wordBytes x.2⟩) =
      wordBytes (l.flatMap fun x => htonl (BitVec.ofNat 32 (4 * x.2.length + 8)) :: ip :: portCode port x.1 :: x.2) := by
  simp only [wordBytes_flatMap, Spec.Hub.reply, List.flatMap_map, wordBytes_cons, wordBytes_length, leBytes_htonl, leBytes_portCode]
  simp only [BitVec.toNat_ofNat, be4_mod, leBytes_be ip, hubAddr, List.append_assoc]

/-- What the client makes of the words of an answer: see C25. -/
theorem C51_verdict (ip : W) (port code : BitVec 16) : hubVerdict ip.toNat port.toNat ip.toNat (portCode port code).toNat =
    if code.toNat = 0 then none else if code.toNat = 1 ∨ code.toNat = 3 ∨ code.toNat = 4 then some .hubTimeout else some .hubError := by
  have hp := port.isLt
  have hc := code.isLt
  have e1 : (portCode port code).toNat % 2 ^ 16 = port.toNat := by rw [portCode_toNat]; omega
  have e : (portCode port code).toNat / 2 ^ 16 = code.toNat % 256 * 256 + code.toNat / 256 := by rw [portCode_toNat]; omega
  have e' : (portCode port code).toNat / 2 ^ 24 = code.toNat % 256 := by
    rw [show (2 : Nat) ^ 24 = 2 ^ 16 * 2 ^ 8 from rfl, ← Nat.div_div_eq_div_mul, e]; omega
  have e2 : (portCode port code).toNat / 2 ^ 24 % 256 + (portCode port code).toNat / 2 ^ 16 % 256 * 256 = code.toNat := by
    have hq : (code.toNat % 256 * 256 + code.toNat / 256) % 256 = code.toNat / 256 := by clear e e' e1; omega
    have hq' : code.toNat % 256 % 256 = code.toNat % 256 := by clear e e' e1; omega
    rw [e, e', hq, hq']; clear e e' e1 hq hq'; omega
  unfold hubVerdict
  simp only [e1, e2, ne_eq, not_true_eq_false, if_false]

variable {σ : Type}

/-- **C51, the target.** The target of the device client's model and the target of the client's model give the same answer to a packet:
`viaHub` prepends what the ControlHub does. -/
theorem C51_viaHub {ip : W} {port : BitVec 16} (hh : c.hub = some (ip, port)) (hv : c.ver = .v2) (tg : Target σ) (d : Dev σ) (b : Buf)
    (txns : List (Nat × Txn)) (hp : parsePacket .v2 (b.send.drop 2) = some (0, txns)) (hne : txns ≠ []) :
    ∃ ws, viaHub c tg d b.send = (some ws, { d with mem := (execBytes tg d.mem ((pktBytes b).drop 4)).1 }) ∧
      wordBytes ws = Spec.Hub.reply (hubAddr ip port).ip (hubAddr ip port).port
        [⟨0, (pktBytes b).take 4 ++ (execBytes tg d.mem ((pktBytes b).drop 4)).2⟩] := by
  obtain ⟨r, h1, h2⟩ := dummyReply_bytes tg d (b.send.drop 2) txns hp hne
  refine ⟨htonl (BitVec.ofNat 32 (4 * r.length + 8)) :: ip :: port.setWidth 32 :: r, ?_, ?_⟩
  · simp only [viaHub, hh, hv, h1]
    rfl
  · have h3 := C51_reply ip port [(0#16, r)]
    simp only [List.map_cons, List.map_nil, h2, List.flatMap_cons, List.flatMap_nil, List.append_nil, portCode_zero] at h3
    exact h3.symm

/-- **C51.** The packets of a program (any program, any transport so far), sent in chunks over one connection to a ControlHub. Whatever
happens between ControlHub and target, and whatever other clients do: the messages that come back are, word by word, the answers of
`viaHub` (with the memory as it is after all packets that the device client took before this one), or an error code that the client
takes for a timeout. -/
theorem C51_end_partial {ip : W} {port : BitVec 16} (T : Transport τ) (hw : WF c) (hT : T.Total) (hh : c.hub = some (ip, port))
    (hv : c.ver = .v2) (hmax : c.maxSend.toNat < 4 * 2 ^ 16) (hr : Roomy c) (ops : List Op) (hops : ∀ op ∈ ops, op.ok c) (t : τ)
    (rs : List Res) (s : St τ) (hrun : runOps c T ops (St.init t) = some (rs, s))
    (tg : Target σ) {t0 : Hub.Tgt σ} {absMax L me p : Nat} (hd : 0 < t0.depth) (hmx : 0 < absMax)
    (hb : L + min t0.depth absMax + 2 * t0.depth < 65535) (h0 : Hub.RecentHist t0)
    (chunks : List (List Buf)) (hch : ∀ bs ∈ chunks, bs ≠ [] ∧ ∀ b ∈ bs, b ∈ s.hist) {es : List WEv}
    (hes : bins es = chunks.map fun bs => wordBytes (mkFrame bs).words) {w : World σ}
    (hwr : (World.init t0 absMax).run (execBytes tg) me p (hubAddr ip port) es = some w)
    (hp : Prompt (execBytes tg) L (Hub.start t0 absMax) w.evs) :
    w.tm.crashed = false ∧ ∃ g : List (List (List W)), w.tm.sent = g.map (fun items => wordBytes items.flatten) ∧
      g.length ≤ chunks.length ∧ ∀ (j : Nat) (bs : List Buf) (items : List (List W)), chunks[j]? = some bs → g[j]? = some items →
        items.length = bs.length ∧ ∀ (i : Nat) (b : Buf) (it : List W), bs[i]? = some b → items[i]? = some it →
          (∃ k, (controlRequests w.evs)[k]? = some (pktBytes b, me) ∧
            (((controlRequests w.evs).take k).filter fun q => q.2 = me).length = (chunks.take j).flatten.length + i ∧
            ∀ last, (viaHub c tg ⟨Hub.final (execBytes tg) t0.st (((controlRequests w.evs).take k).map Hub.bodyOf), last⟩ b.send).1 =
              some it) ∨
          ∃ code : BitVec 16, (code = 1 ∨ code = 3 ∨ code = 4) ∧ it = errorWords ip port code := by
  have hfin : ∀ bs ∈ chunks, ∀ b ∈ bs, ∃ f, FinOK c f ∧ b = f.buf c := by
    intro bs hbs b hb'
    obtain ⟨rs', s', _, _, h1, h2, _⟩ := inv_run hw hT ops hops (Inv.init c t)
    rw [hrun] at h1; cases h1
    exact inv_hist h2 b ((hch bs hbs).2 b hb')
  have hcs : ∀ ps ∈ chunks.map (List.map pktBytes), Chunk ps := by
    intro ps hps
    obtain ⟨bs, hbs, rfl⟩ := List.mem_map.mp hps
    refine ⟨by simpa using (hch bs hbs).1, ?_⟩
    intro x hx
    obtain ⟨b, hb', rfl⟩ := List.mem_map.mp hx
    obtain ⟨f, hf, rfl⟩ := hfin bs hbs b hb'
    have := fin_pkt hw hh hmax hf
    exact ⟨this.1, this.2 hv⟩
  have hbin : bins es = (chunks.map (List.map pktBytes)).map (Spec.Hub.request (hubAddr ip port).ip (hubAddr ip port).port) := by
    rw [hes, List.map_map]
    apply List.map_congr_left
    intro bs hbs
    simp only [Function.comp, mkFrame, wordBytes_flatMap, Spec.Hub.request, List.flatMap_map]
    simp only [List.flatMap]
    congr 1
    apply List.map_congr_left
    intro b hb'
    exact send_bytes (C24_preamble c T hw hT ip port hh hmax ops hops t rs s hrun b ((hch bs hbs).2 b hb')).1
  have ha : (hubAddr ip port).ip < 2 ^ 32 ∧ (hubAddr ip port).port < 2 ^ 16 := ⟨(htonl ip).isLt, (bswap16 port).isLt⟩
  obtain ⟨hc, g, h1, h2, h3⟩ := TraMgr.C50_answers_partial ha hd hmx hb h0 hcs hbin hwr hp
  have key : ∀ (j : Nat) (bs : List Buf) (rs : List Spec.Hub.Answer), chunks[j]? = some bs → g[j]? = some rs →
      rs.length = bs.length ∧ ∀ (i : Nat) (b : Buf) (r : Spec.Hub.Answer), bs[i]? = some b → rs[i]? = some r → ∃ it : List W,
        Spec.Hub.reply (hubAddr ip port).ip (hubAddr ip port).port [r] = wordBytes it ∧
        ((∃ k, (controlRequests w.evs)[k]? = some (pktBytes b, me) ∧
            (((controlRequests w.evs).take k).filter fun q => q.2 = me).length = (chunks.take j).flatten.length + i ∧
            ∀ last, (viaHub c tg ⟨Hub.final (execBytes tg) t0.st (((controlRequests w.evs).take k).map Hub.bodyOf), last⟩ b.send).1 =
              some it) ∨
          ∃ code : BitVec 16, (code = 1 ∨ code = 3 ∨ code = 4) ∧ it = errorWords ip port code) := by
    intro j bs rs hbs hrs
    obtain ⟨h4, h5⟩ := h3 j (bs.map pktBytes) rs (by rw [List.getElem?_map, hbs]; rfl) hrs
    refine ⟨by simpa using h4, ?_⟩
    intro i b r hb' hr'
    have h6 := h5 i (pktBytes b) r (by rw [List.getElem?_map, hb']; rfl) hr'
    have hlen : ((chunks.map (List.map pktBytes)).take j).flatten.length = (chunks.take j).flatten.length := by
      rw [← List.map_take, ← List.map_flatten, List.length_map]
    rw [hlen] at h6
    rcases h6 with ⟨hr0, k, hk, hn, hdata⟩ | ⟨hcode, hdata⟩
    · obtain ⟨f, hf, rfl⟩ := hfin bs (List.mem_of_getElem? hbs) b (List.mem_of_getElem? hb')
      have hparse := parse_fin hf
      rw [hv] at hparse
      unfold ipbusPart at hparse
      rw [hh] at hparse
      have hne : (f.all.map fun it => (it.cnt % 2 ^ idBits .v2, it.txn)) ≠ [] := by simpa using fin_ne hf fun _ => hr
      have hrr : r = ⟨0, (pktBytes (f.buf c)).take 4 ++ (execBytes tg (Hub.final (execBytes tg) t0.st
          (((controlRequests w.evs).take k).map Hub.bodyOf)) ((pktBytes (f.buf c)).drop 4)).2⟩ := by
        rw [← hdata, ← hr0]
      obtain ⟨ws, h7, h8⟩ := C51_viaHub hh hv tg ⟨Hub.final (execBytes tg) t0.st (((controlRequests w.evs).take k).map Hub.bodyOf), 0⟩
        (f.buf c) _ hparse hne
      refine ⟨ws, by rw [hrr]; exact h8.symm, Or.inl ⟨k, hk, hn, ?_⟩⟩
      intro last
      obtain ⟨ws', h7', h8'⟩ := C51_viaHub hh hv tg ⟨Hub.final (execBytes tg) t0.st (((controlRequests w.evs).take k).map Hub.bodyOf), last⟩
        (f.buf c) _ hparse hne
      rw [h7']
      have : wordBytes ws' = wordBytes ws := by rw [h8, h8']
      have := congrArg ofLE this
      rw [ofLE_wordBytes, ofLE_wordBytes] at this
      rw [this]
    · refine ⟨errorWords ip port (BitVec.ofNat 16 r.code), ?_, Or.inr ⟨BitVec.ofNat 16 r.code, ?_, rfl⟩⟩
      · have h9 := C51_reply ip port [(BitVec.ofNat 16 r.code, [])]
        have hc16 : (BitVec.ofNat 16 r.code).toNat = r.code := by rw [BitVec.toNat_ofNat]; omega
        have hrr : r = ⟨r.code, wordBytes []⟩ := by rw [show wordBytes [] = r.data from hdata.symm]
        simp only [List.map_cons, List.map_nil, hc16, List.flatMap_cons, List.flatMap_nil, List.append_nil] at h9
        rw [hrr]
        exact h9
      · rcases hcode with h | h | h <;> rw [h] <;> decide
  have conv : ∀ rs ∈ g, Spec.Hub.reply (hubAddr ip port).ip (hubAddr ip port).port rs =
      wordBytes (rs.map fun r => ofLE (Spec.Hub.reply (hubAddr ip port).ip (hubAddr ip port).port [r])).flatten := by
    intro rs hrs
    obtain ⟨j, hj⟩ := List.mem_iff_getElem?.mp hrs
    have hjl := (List.getElem?_eq_some_iff.mp hj).1
    rw [List.length_map] at h2
    obtain ⟨bs, hbs⟩ : ∃ bs, chunks[j]? = some bs := ⟨_, List.getElem?_eq_getElem (by omega)⟩
    obtain ⟨k1, k2⟩ := key j bs rs hbs hj
    rw [← List.flatMap_def, wordBytes_flatMap]
    have h10 : ∀ r ∈ rs, Spec.Hub.reply (hubAddr ip port).ip (hubAddr ip port).port [r] =
        wordBytes (ofLE (Spec.Hub.reply (hubAddr ip port).ip (hubAddr ip port).port [r])) := by
      intro r hr'
      obtain ⟨i, hi⟩ := List.mem_iff_getElem?.mp hr'
      have hil := (List.getElem?_eq_some_iff.mp hi).1
      obtain ⟨it, h11, _⟩ := k2 i bs[i] r (List.getElem?_eq_getElem (by omega)) hi
      rw [h11, ofLE_wordBytes]
    have h12 : Spec.Hub.reply (hubAddr ip port).ip (hubAddr ip port).port rs =
        rs.flatMap fun r => Spec.Hub.reply (hubAddr ip port).ip (hubAddr ip port).port [r] := by
      simp only [Spec.Hub.reply, List.flatMap_cons, List.flatMap_nil, List.append_nil]
    rw [h12]
    simp only [List.flatMap]
    congr 1
    exact List.map_congr_left h10
  refine ⟨hc, g.map (List.map fun r => ofLE (Spec.Hub.reply (hubAddr ip port).ip (hubAddr ip port).port [r])), ?_, by simpa using h2, ?_⟩
  · rw [h1, List.map_map]
    exact List.map_congr_left conv
  · intro j bs items hbs hit
    rw [List.getElem?_map, Option.map_eq_some_iff] at hit
    obtain ⟨rs, hrs, rfl⟩ := hit
    obtain ⟨k1, k2⟩ := key j bs rs hbs hrs
    refine ⟨by rw [List.length_map, k1], ?_⟩
    intro i b it hb' hit
    rw [List.getElem?_map, Option.map_eq_some_iff] at hit
    obtain ⟨r, hr', rfl⟩ := hit
    obtain ⟨it, h11, h12⟩ := k2 i b r hb' hr'
    rw [h11, ofLE_wordBytes]
    exact h12

/-! ## What the client does with the answers -/

theorem words_fin (c : Cfg) (f : Fin') : (f.buf c).words = preSlotCount c + (f.all.flatMap itemLocs).length := by
  rw [← bufLocs_length, fin_locs, List.length_append, preLocs_length]

theorem answered_fin (hr : c.ver = .v2 → Roomy c) (tg : Target σ) {f : Fin'} (hf : FinOK c f) {d : Dev σ} {it : List W}
    (h : (viaHub c tg d (f.buf c).send).1 = some it) :
    it.length = (f.buf c).words ∧ ∀ h0 : Heap, finVerdict c (scatter h0 (f.buf c).reply it).word f = none := by
  obtain ⟨pre, body, e', hre, hpr, hbd, -⟩ := dummy_conforms tg c d (f.buf c).send _ (parse_fin hf) (by simp [fin_ne hf hr])
  rw [hre] at h
  cases h
  rw [show (f.all.map fun it => (it.cnt % 2 ^ idBits c.ver, it.txn)) = f.all.map (onWire c.ver) from rfl, onWire_snd] at hbd
  refine ⟨?_, fun h0 => conf_verdict hf h0 pre body _ hpr hbd⟩
  rw [List.length_append, replyPre_length hpr, body_length _ _ _ hbd, words_fin]

/-- **C51, the client's verdict.** Packets of a program over TCP that were sent as one chunk (or any of them, in order), and the message of
the ControlHub to them. If all packets are answered by the target, the message is accepted; the first error code in it is reported as the
exception that belongs to it, although all answers behind it are in the wrong place. -/
theorem C51_client {ip : W} {port : BitVec 16} {n N : Nat} (hw : WF c) (hcap : CapOK c) (hr : c.ver = .v2 → Roomy c)
    (hh : c.hub = some (ip, port)) (ops : List Op) (hops : ∀ op ∈ ops, op.ok c) (plan : List (List TEv × Bool)) (rs : List Res)
    (s : St TcpT) (hrun : runOps c (tcpT c n N) ops (St.init (TcpT.init plan)) = some (rs, s))
    (bs : List Buf) (hbs : bs.Sublist s.hist) (tg : Target σ) (items : List (List W)) (hlen : items.length = bs.length) (h : Heap) :
    ((∀ (j : Nat) (b : Buf) (it : List W), bs[j]? = some b → items[j]? = some it → ∃ d, (viaHub c tg d b.send).1 = some it) →
      (receiveChunk c h bs items.flatten).1 = .ok) ∧
    ∀ (i : Nat) (code : BitVec 16), code ≠ 0 → items[i]? = some (errorWords ip port code) →
      (∀ (j : Nat) (b : Buf) (it : List W), j < i → bs[j]? = some b → items[j]? = some it → ∃ d, (viaHub c tg d b.send).1 = some it) →
      (receiveChunk c h bs items.flatten).1 = .err (if code = 1 ∨ code = 3 ∨ code = 4 then .hubTimeout else .hubError) := by
  have h1 := (run_completed (c := c) tcpT_decent ops (t := TcpT.init plan) ⟨by simp [TcpT.init, Tcp.init], by simp [TcpT.init, Tcp.init]⟩ hrun).1
  obtain ⟨rs', s', _, _, g1, g2, _⟩ := inv_run hw (Transport.completed_total (tcpT c n N)) ops hops (Inv.init c (TcpT.init plan))
  rw [h1] at g1; cases g1
  have hdisj : bs.Pairwise Disj := (tcp_hist_disj hw ops hops plan hrun).1.sublist hbs
  have hfin : ∀ b ∈ bs, ∃ f, FinOK c f ∧ b = f.buf c := fun b hb => inv_hist g2 b (hbs.subset hb)
  -- an answered packet, if those before it are answered
  have good : ∀ (i : Nat), (∀ (j : Nat) (b : Buf) (it : List W), j < i → bs[j]? = some b → items[j]? = some it →
      ∃ d, (viaHub c tg d b.send).1 = some it) → ∀ (j : Nat) (b : Buf), j < i → bs[j]? = some b →
      validateBuf c (scatter h (bs.flatMap (·.reply)) items.flatten).word b = .ok := by
    intro i hall j b hj hb
    have hjl := (List.getElem?_eq_some_iff.mp hb).1
    obtain ⟨it, hit⟩ : ∃ it, items[j]? = some it := ⟨_, List.getElem?_eq_getElem (by omega)⟩
    obtain ⟨h0, hs⟩ := scatter_at bs items h j b it hdisj (by
      intro j' b' it' hj' hb' hit'
      obtain ⟨d, hd⟩ := hall j' b' it' (by omega) hb' hit'
      obtain ⟨f', hf', rfl⟩ := hfin b' (List.mem_of_getElem? hb')
      exact (answered_fin hr tg hf' hd).1) hlen hb hit
    obtain ⟨d, hd⟩ := hall j b it hj hb hit
    obtain ⟨f, hf, rfl⟩ := hfin b (List.mem_of_getElem? hb)
    obtain ⟨a1, a2⟩ := answered_fin hr tg hf hd
    rw [List.take_left' a1] at hs
    rw [validateBuf_congr (rd' := (scatter h0 (f.buf c).reply it).word) (fun sl hsl hn => hs _ (loc_mem hsl hn)),
      validateBuf_fin hw hf hcap hr, a2]
    rfl
  constructor
  · intro hall
    apply chunkValidate_all
    intro b hb
    obtain ⟨j, hj⟩ := List.mem_iff_getElem?.mp hb
    exact good (j + 1) (fun j b it _ => hall j b it) j b (by omega) hj
  · intro i code hcode hit hall
    have hil := (List.getElem?_eq_some_iff.mp hit).1
    obtain ⟨b, hb⟩ : ∃ b, bs[i]? = some b := ⟨_, List.getElem?_eq_getElem (by omega)⟩
    apply chunkValidate_first bs _ _ i b (fun j b' hj hb' => good i hall j b' hj hb') hb
    obtain ⟨h0, hs⟩ := scatter_at bs items h i b _ hdisj (by
      intro j' b' it' hj' hb' hit'
      obtain ⟨d, hd⟩ := hall j' b' it' hj' hb' hit'
      obtain ⟨f', hf', rfl⟩ := hfin b' (List.mem_of_getElem? hb')
      exact (answered_fin hr tg hf' hd).1) hlen hb hit
    obtain ⟨f, hf, rfl⟩ := hfin b (List.mem_of_getElem? hb)
    rw [validateBuf_congr (fun sl hsl hn => hs _ (loc_mem hsl hn)), validateBuf_fin hw hf hcap hr]
    have hloc : ∃ r, bufLocs (f.buf c) = .hub f.g.k 0 :: .hub f.g.k 1 :: .hub f.g.k 2 :: r := by
      rw [fin_locs, preLocs, preSlots, hh]
      exact ⟨_, rfl⟩
    obtain ⟨r, hloc⟩ := hloc
    have hwords : 3 ≤ (f.buf c).words := by rw [← bufLocs_length, hloc]; simp
    have hget : ∀ (q : Nat) (x : W), (errorWords ip port code)[q]? = some x →
        ((errorWords ip port code ++ (items.drop (i + 1)).flatten).take (f.buf c).words)[q]? = some x := by
      intro q x hq
      have hql := (List.getElem?_eq_some_iff.mp hq).1
      have h3 : (errorWords ip port code).length = 3 := rfl
      rw [List.getElem?_take, if_pos (by omega), List.getElem?_append_left (by omega), hq]
    have e1 := scatter_in (fin_nodup hf) h0 _ 1 (.hub f.g.k 1) ip (by rw [hloc]; rfl) (hget 1 ip rfl)
    have e2 := scatter_in (fin_nodup hf) h0 _ 2 (.hub f.g.k 2) (portCode port code) (by rw [hloc]; rfl) (hget 2 _ rfl)
    have hne : code.toNat ≠ 0 := fun h => hcode (BitVec.eq_of_toNat_eq h)
    have hiff : (code.toNat = 1 ∨ code.toNat = 3 ∨ code.toNat = 4) ↔ (code = 1 ∨ code = 3 ∨ code = 4) := by
      simp only [← BitVec.toNat_inj]; rfl
    unfold finVerdict hubV
    rw [hh]
    simp only
    rw [e1, e2, C51_verdict, if_neg hne]
    by_cases hc : code = 1 ∨ code = 3 ∨ code = 4
    · rw [if_pos (hiff.mpr hc), if_pos hc]; rfl
    · rw [if_neg fun x => hc (hiff.mp x), if_neg hc]; rfl

end
/-! ## Non-vacuity -/

/-- A program with packets of at most four words of IPbus. -/
def hubSmall : Cfg := ⟨.v2, some (0x0100000A, 0x51C3), 32, 36, true⟩

theorem hubSmall_ok : WF hubSmall ∧ CapOK hubSmall ∧ Roomy hubSmall :=
  ⟨⟨by decide, by decide, by decide⟩, by unfold CapOK; decide, ⟨by decide, by decide⟩⟩

/-- A write, two reads; the packets that they make. -/
def hubOps : List Op := [.write 1 0xAB, .read 1, .read 2, .dispatch]

/-- What the client sends, as one chunk. -/
def hubChunk : List Buf := ((runOps hubSmall demoTr hubOps (St.init [])).map fun p => p.2.hist).getD []

example : hubChunk.map (·.send) = [[0x0100000A, 0x060051C3, 0x200000F0, 0x2000011F, 1, 0xAB, 0x2001010F, 1],
    [0x0100000A, 0x030051C3, 0x200000F0, 0x2002010F, 2]] := by decide +kernel

/-- The test target behind a network and a ControlHub. -/
def hubTgt : Hub.Tgt (W → W) := ⟨0, [], 2, fun _ => 5, []⟩

/-- The second request is lost and sent again. -/
def hubEvs : List WEv := [.chunk (wordBytes (mkFrame hubChunk).words), .request, .toTarget 0 (List.replicate 48 0), .toHub 0, .response, .request,
  .timeout, .toTarget 2 (List.replicate 48 0), .toHub 1, .toTarget 3 (List.replicate 48 0), .toHub 2, .response]

/-- The run satisfies the hypotheses of `C51_end_partial`, and the message that comes back is this. -/
theorem hub_run : ∃ w, (World.init hubTgt 2).run (execBytes (dummyTarget fun _ => 0)) 7 3 (hubAddr 0x0100000A 0x51C3) hubEvs = some w ∧
    Prompt (execBytes (dummyTarget fun _ => 0)) 100 (Hub.start hubTgt 2) w.evs = true ∧
    w.tm.sent = [wordBytes [0x18000000, 0x0100000A, 0x51C3, 0x200000F0, 0x20000110, 0x20010100, 0xAB,
      0x14000000, 0x0100000A, 0x51C3, 0x200000F0, 0x20020100, 5]] := by
  have h : ((World.init hubTgt 2).run (execBytes (dummyTarget fun _ => 0)) 7 3 (hubAddr 0x0100000A 0x51C3) hubEvs).map
      (fun w => (Prompt (execBytes (dummyTarget fun _ => 0)) 100 (Hub.start hubTgt 2) w.evs, w.tm.sent)) = some (true,
      [wordBytes [0x18000000, 0x0100000A, 0x51C3, 0x200000F0, 0x20000110, 0x20010100, 0xAB,
      0x14000000, 0x0100000A, 0x51C3, 0x200000F0, 0x20020100, 5]]) := by decide +kernel
  obtain ⟨w, hw, h2⟩ := Option.map_eq_some_iff.mp h
  obtain ⟨h3, h4⟩ := Prod.mk.inj h2
  exact ⟨w, hw, h3, h4⟩

example (rs : List Res) (s : St (List Bool)) (h : runOps hubSmall demoTr hubOps (St.init []) = some (rs, s)) :=
  fun w hw hp => C51_end_partial (w := w) (L := 100) (es := hubEvs) (c := hubSmall) demoTr hubSmall_ok.1 demoTr_total rfl rfl (by decide)
    hubSmall_ok.2.2 hubOps (by simp [hubOps, Op.ok]) [] rs s h (dummyTarget fun _ => 0) (t0 := hubTgt) (absMax := 2) (me := 7) (p := 3)
    (by decide) (by decide) (by decide) ⟨by decide, by intro p x h; simp [hubTgt] at h⟩ [hubChunk]
    (by
      intro bs hbs
      simp only [List.mem_singleton] at hbs
      subst hbs
      refine ⟨by decide +kernel, ?_⟩
      intro b hb
      rwa [hubChunk, h] at hb) rfl hw hp

/-- The same program over TCP: the target answers the first packet, the ControlHub reports a timeout for the second. -/
def hubTcp : Option (List Res × St TcpT) := runOps hubSmall (tcpT hubSmall 2 16) hubOps (St.init (TcpT.init
  [([], true), ([], true), ([], true), ([.sendDone true, .recvHdr (some 10), .recvBody (some ([0x18000000, 0x0100000A, 0x51C3, 0x200000F0, 0x20000110,
    0x20010100, 0xAB] ++ errorWords 0x0100000A 0x51C3 3)), .recvEnd, .recvEnd], true)]))

example : hubTcp.map (fun p => (p.2.hist == hubChunk, p.1.getLast?, p.2.tr.u.log.map (·.out))) =
    some (true, some (.exc .hubTimeout), [.ok, .err .hubTimeout]) := by decide +kernel

example (rs : List Res) (s : St TcpT) (h : hubTcp = some (rs, s)) (h0 : Heap) :
    (receiveChunk hubSmall h0 s.hist (([[0x18000000, 0x0100000A, 0x51C3, 0x200000F0, 0x20000110, 0x20010100, 0xAB],
      errorWords 0x0100000A 0x51C3 3] : List (List W)).flatten)).1 = .err .hubTimeout := by
  have hh : s.hist = hubChunk := by
    have : hubTcp.map (fun p => decide (p.2.hist = hubChunk)) = some true := by decide +kernel
    rw [h] at this
    simpa using this
  have hl : hubChunk.length = 2 := by decide +kernel
  refine (C51_client hubSmall_ok.1 hubSmall_ok.2.1 (fun _ => hubSmall_ok.2.2) rfl hubOps (by simp [hubOps, Op.ok]) _ rs s h s.hist
    (List.Sublist.refl _) (dummyTarget fun _ => 0) [[0x18000000, 0x0100000A, 0x51C3, 0x200000F0, 0x20000110, 0x20010100, 0xAB],
      errorWords 0x0100000A 0x51C3 3] (by rw [hh, hl]; rfl) h0).2 1 3 (by decide) rfl ?_
  intro j b it hj hb hit
  have : j = 0 := by omega
  subst this
  cases hit
  rw [hh] at hb
  have h2 : hubChunk[0]?.map (fun b => (viaHub hubSmall (dummyTarget fun _ => 0) ⟨fun _ => 5, 0⟩ b.send).1) =
    some (some [0x18000000, 0x0100000A, 0x51C3, 0x200000F0, 0x20000110, 0x20010100, 0xAB]) := by decide +kernel
  rw [hb] at h2
  exact ⟨⟨fun _ => 5, 0⟩, by simpa using h2⟩

end Verif
