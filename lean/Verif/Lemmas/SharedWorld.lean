import Verif.Lemmas.SharedHub
import Verif.Lemmas.TcpWhole
/-!
# From the ControlHub to the calls
-/

set_option autoImplicit false
set_option linter.unusedSimpArgs false

namespace Verif
open Spec
open Verif.Hub (Bytes controlRequests Prompt)
open Verif.TraMgr (World WEv bins Chunk)

section
variable {c : Cfg} {ip : W} {port : BitVec 16} {σ : Type}

/-- The transactions of a packet. -/
def Fin'.txns (f : Fin') : List Txn := f.all.map Item.txn

/-- Packets, the answers to them, and what their transactions read. -/
def AllSay (c : Cfg) : List Fin' → List (List W) → List (List (List W)) → Prop
  | [], [], [] => True
  | f :: fs, it :: its, vals :: vs => Says c (f.buf c) f.txns it vals ∧ AllSay c fs its vs
  | _, _, _ => False

theorem AllSay.follows {tg : Target σ} : ∀ (fs : List Fin') (its : List (List W)) (vs : List (List (List W))) (m : σ) (last : W),
    AllSay c fs its vs → (execPks c.ver tg (fs.map Fin'.txns) m).1 = vs →
    Follows (viaHub c tg) ⟨m, last⟩ ((fs.map (Fin'.buf c)).zip (its.map some)) ⟨(execPks c.ver tg (fs.map Fin'.txns) m).2, last⟩ := by
  intro fs
  induction fs with
  | nil =>
    intro its vs m last h _
    exact .nil _
  | cons f fs ih =>
    intro its vs m last h he
    match its, vs, h with
    | it :: its, vals :: vs, h =>
      simp only [List.map_cons, execPks] at he ⊢
      injection he with h1 h2
      exact .cons (h.1 tg ⟨m, last⟩ h1) (ih its vs _ last h.2 h2)

theorem fin_body (hh : c.hub = some (ip, port)) (hv : c.ver = .v2) (hr : Roomy c) (tg : Target σ) {f : Fin'} (hf : FinOK c f) (m : σ) :
    (execBytes tg m ((pktBytes (f.buf c)).drop 4)).1 = (execTxns c.ver tg f.txns m).2 ∧
    ∀ last it, (viaHub c tg ⟨m, last⟩ (f.buf c).send).1 = some it → Says c (f.buf c) f.txns it (execTxns c.ver tg f.txns m).1 := by
  have hparse := parse_fin hf
  rw [hv] at hparse
  unfold ipbusPart at hparse
  rw [hh] at hparse
  have hne : (f.all.map fun it => (it.cnt % 2 ^ idBits .v2, it.txn)) ≠ [] := by simpa using fin_ne hf fun _ => hr
  have htx : (f.all.map fun it => (it.cnt % 2 ^ idBits .v2, it.txn)).map Prod.snd = f.txns := by simp [Fin'.txns]
  constructor
  · obtain ⟨ws, h1, _⟩ := C51_viaHub hh hv tg ⟨m, 0⟩ (f.buf c) _ hparse hne
    obtain ⟨it, h2, h3⟩ := viaHub_says (c := c) hh hv hparse hne tg ⟨m, 0⟩
    have h4 := h3 tg ⟨m, 0⟩ rfl
    rw [h1, htx] at h4
    have := congrArg (fun x => x.2.mem) h4
    exact this
  · intro last it hit
    obtain ⟨it', h2, h3⟩ := viaHub_says (c := c) hh hv hparse hne tg ⟨m, last⟩
    rw [hit] at h2
    cases h2
    rw [htx] at h3
    exact h3

/-- The packets that a device client took, from the side of one of the connections. -/
theorem hub_pks (hh : c.hub = some (ip, port)) (hv : c.ver = .v2) (hr : Roomy c) (tg : Target σ) (me : Nat) :
    ∀ (cr : List (Bytes × Nat)) (fs : List Fin') (its : List (List W)) (m : σ), (∀ f ∈ fs, FinOK c f) →
    (cr.filter fun q => decide (q.2 = me)).map (·.1) = fs.map (fun f => pktBytes (f.buf c)) → its.length = fs.length →
    (∀ (k : Nat) (f : Fin') (it : List W), cr[k]? = some (pktBytes (f.buf c), me) →
      fs[((cr.take k).filter fun q => decide (q.2 = me)).length]? = some f →
      its[((cr.take k).filter fun q => decide (q.2 = me)).length]? = some it →
      ∃ last, (viaHub c tg ⟨Hub.final (execBytes tg) m ((cr.take k).map Hub.bodyOf), last⟩ (f.buf c).send).1 = some it) →
    ∃ vs, SharedPks c.ver tg (fun m b => (execBytes tg m b).1) m (fs.map Fin'.txns) ((cr.filter fun q => !decide (q.2 = me)).map Hub.bodyOf) vs
        (Hub.final (execBytes tg) m (cr.map Hub.bodyOf)) ∧ AllSay c fs its vs := by
  intro cr
  induction cr with
  | nil =>
    intro fs its m _ hown hlen _
    have : fs = [] := by simpa using hown.symm
    subst this
    have : its = [] := by simpa using hlen
    subst this
    exact ⟨[], .done m, trivial⟩
  | cons x cr ih =>
    intro fs its m hfin hown hlen hk
    obtain ⟨body, who⟩ := x
    by_cases hx : who = me
    · subst hx
      rw [List.filter_cons_of_pos (by simp), List.map_cons] at hown
      cases fs with
      | nil => simp at hown
      | cons f fs =>
        cases its with
        | nil => simp at hlen
        | cons it its =>
          rw [List.map_cons] at hown
          injection hown with h1 h2
          simp only at h1
          subst h1
          obtain ⟨b1, b2⟩ := fin_body hh hv hr tg (hfin f (by simp)) m
          obtain ⟨last, h3⟩ := hk 0 f it rfl rfl rfl
          obtain ⟨vs, g1, g2⟩ := ih fs its (execTxns c.ver tg f.txns m).2 (fun f hf => hfin f (by simp [hf])) h2 (by simpa using hlen) (by
            intro k f' it' hk1 hk2 hk3
            obtain ⟨last, h⟩ := hk (k + 1) f' it' hk1
              (by rw [List.take_succ_cons, List.filter_cons_of_pos (by simp), List.length_cons]; exact hk2)
              (by rw [List.take_succ_cons, List.filter_cons_of_pos (by simp), List.length_cons]; exact hk3)
            refine ⟨last, ?_⟩
            rw [List.take_succ_cons, List.map_cons, Hub.final] at h
            rw [← b1]
            exact h)
          refine ⟨_ :: vs, ?_, b2 last it h3, g2⟩
          rw [List.filter_cons_of_neg (by simp), List.map_cons, List.map_cons, Hub.final]
          rw [← b1] at g1
          rw [show Hub.bodyOf (pktBytes (f.buf c), who) = (pktBytes (f.buf c)).drop 4 from rfl]
          apply SharedPks.mine
          rw [← b1]
          exact g1
    · rw [List.filter_cons_of_neg (by simpa using hx)] at hown
      obtain ⟨vs, g1, g2⟩ := ih fs its (execBytes tg m (body.drop 4)).1 hfin hown hlen (by
        intro k f' it' hk1 hk2 hk3
        obtain ⟨last, h⟩ := hk (k + 1) f' it' hk1
          (by rw [List.take_succ_cons, List.filter_cons_of_neg (by simpa using hx)]; exact hk2)
          (by rw [List.take_succ_cons, List.filter_cons_of_neg (by simpa using hx)]; exact hk3)
        refine ⟨last, ?_⟩
        rw [List.take_succ_cons, List.map_cons, Hub.final] at h
        exact h)
      refine ⟨vs, ?_, g2⟩
      rw [List.filter_cons_of_pos (by simpa using hx), List.map_cons, List.map_cons, Hub.final]
      exact .other g1

/-- What the device client took from the connection is what came over it. -/
theorem own_requests {τ : Type} (T : Transport τ) (hw : WF c) (hT : T.Total) (hh : c.hub = some (ip, port))
    (hv : c.ver = .v2) (hmax : c.maxSend.toNat < 4 * 2 ^ 16) (ops : List Op) (hops : ∀ op ∈ ops, op.ok c) (t : τ)
    (rs : List Res) (s : St τ) (hrun : runOps c T ops (St.init t) = some (rs, s))
    (tg : Target σ) {t0 : Hub.Tgt σ} {absMax L me p : Nat} (hd : 0 < t0.depth) (hmx : 0 < absMax)
    (hb : L + min t0.depth absMax + 2 * t0.depth < 65535) (h0 : Hub.RecentHist t0)
    (chunks : List (List Buf)) (hch : ∀ bs ∈ chunks, bs ≠ [] ∧ ∀ b ∈ bs, b ∈ s.hist) {es : List WEv}
    (hes : bins es = chunks.map fun bs => wordBytes (mkFrame bs).words) {w : World σ}
    (hwr : (World.init t0 absMax).run (execBytes tg) me p (hubAddr ip port) es = some w)
    (hp : Prompt (execBytes tg) L (Hub.start t0 absMax) w.evs) :
    TraMgr.ownRequests me w.evs = (chunks.flatten.map pktBytes).take w.taken := by
  have hfin : ∀ bs ∈ chunks, ∀ b ∈ bs, ∃ f, FinOK c f ∧ b = f.buf c := by
    intro bs hbs b hb'
    obtain ⟨rs', s', _, _, h1, h2, _⟩ := inv_run hw hT ops hops (Inv.init c t)
    rw [hrun] at h1; cases h1
    exact inv_hist h2 b ((hch bs hbs).2 b hb')
  have hcs : ∀ ps ∈ chunks.map (List.map pktBytes), Chunk ps := by
    intro ps hps
    obtain ⟨bs, hbs, rfl⟩ := List.mem_map.mp hps
    refine ⟨by simpa using (hch bs hbs).1, ?_⟩
    intro x hx
    obtain ⟨b, hb', rfl⟩ := List.mem_map.mp hx
    obtain ⟨f, hf, rfl⟩ := hfin bs hbs b hb'
    have := fin_pkt hw hh hmax hf
    exact ⟨this.1, this.2 hv⟩
  have hbin : bins es = (chunks.map (List.map pktBytes)).map (Spec.Hub.request (hubAddr ip port).ip (hubAddr ip port).port) := by
    rw [hes, List.map_map]
    apply List.map_congr_left
    intro bs hbs
    simp only [Function.comp, mkFrame, wordBytes_flatMap, Spec.Hub.request, List.flatMap_map]
    simp only [List.flatMap]
    congr 1
    apply List.map_congr_left
    intro b hb'
    exact send_bytes (C24_preamble c T hw hT ip port hh hmax ops hops t rs s hrun b ((hch bs hbs).2 b hb')).1
  have ha : (hubAddr ip port).ip < 2 ^ 32 ∧ (hubAddr ip port).port < 2 ^ 16 := ⟨(htonl ip).isLt, (bswap16 port).isLt⟩
  have h := (TraMgr.winv ha hd hmx hb h0 hcs hbin hwr hp).own
  rw [h, List.map_flatten]

theorem answered_parts : ∀ (bs : List Buf) (items : List (List W)), items.length = bs.length →
    (∀ (i : Nat) (b : Buf) (it : List W), bs[i]? = some b → items[i]? = some it → it.length = b.words) →
    answered bs items.flatten = bs.zip (items.map some) := by
  intro bs
  induction bs with
  | nil => intro items _ _; rfl
  | cons b bs ih =>
    intro items hl h
    cases items with
    | nil => simp at hl
    | cons it items =>
      have h1 := h 0 b it rfl rfl
      simp only [answered, List.flatten_cons, List.map_cons, List.zip_cons_cons]
      rw [← h1, List.take_left, List.drop_left, ih items (by simpa using hl) (fun i b it hb hi => h (i + 1) b it (by simpa using hb) (by simpa using hi))]

theorem zip_flat {α β : Type} : ∀ (l : List (List α)) (g : List (List β)), l.length = g.length →
    (∀ (j : Nat) (a : List α) (b : List β), l[j]? = some a → g[j]? = some b → b.length = a.length) →
    (l.zip g).flatMap (fun x => x.1.zip x.2) = l.flatten.zip g.flatten ∧ g.flatten.length = l.flatten.length := by
  intro l
  induction l with
  | nil => intro g h _; cases g <;> simp at h ⊢
  | cons a l ih =>
    intro g h hj
    cases g with
    | nil => simp at h
    | cons b g =>
      obtain ⟨h1, h2⟩ := ih g (by simpa using h) (fun j a b ha hb => hj (j + 1) a b (by simpa using ha) (by simpa using hb))
      have h3 := hj 0 a b rfl rfl
      refine ⟨?_, by simp [h2, h3]⟩
      simp only [List.zip_cons_cons, List.flatMap_cons, List.flatten_cons, h1]
      rw [List.zip_append h3.symm]

/-- An index into parts of the same sizes. -/
theorem flat_index {α β : Type} : ∀ (l : List (List α)) (g : List (List β)) (q : Nat) (x : α) (y : β), l.length = g.length →
    (∀ (j : Nat) (a : List α) (b : List β), l[j]? = some a → g[j]? = some b → b.length = a.length) →
    l.flatten[q]? = some x → g.flatten[q]? = some y → ∃ (j i : Nat) (a : List α) (b : List β), l[j]? = some a ∧ g[j]? = some b ∧
      a[i]? = some x ∧ b[i]? = some y ∧ q = (l.take j).flatten.length + i := by
  intro l
  induction l with
  | nil => intro g q x y _ _ h; simp at h
  | cons a l ih =>
    intro g q x y hlen hj hx hy
    cases g with
    | nil => simp at hlen
    | cons b g =>
      have hab := hj 0 a b rfl rfl
      rw [List.flatten_cons] at hx hy
      by_cases hq : q < a.length
      · rw [List.getElem?_append_left hq] at hx
        rw [List.getElem?_append_left (by omega)] at hy
        exact ⟨0, q, a, b, rfl, rfl, hx, hy, by simp⟩
      · rw [List.getElem?_append_right (by omega)] at hx hy
        rw [hab] at hy
        obtain ⟨j, i, a', b', h1, h2, h3, h4, h5⟩ := ih g (q - a.length) x y (by simpa using hlen)
          (fun j a b ha hb => hj (j + 1) a b (by simpa using ha) (by simpa using hb)) hx hy
        refine ⟨j + 1, i, a', b', by simpa using h1, by simpa using h2, h3, h4, ?_⟩
        rw [List.take_succ_cons, List.flatten_cons, List.length_append]
        omega

/-- The position of a request is given by the number of requests of the same kind before it. -/
theorem own_unique {α : Type} (f : α → Bool) {l : List α} {k k' : Nat} {x x' : α} (h : l[k]? = some x) (hx : f x = true) (h' : l[k']? = some x')
    (hx' : f x' = true) (hc : ((l.take k).filter f).length = ((l.take k').filter f).length) : k = k' := by
  have key : ∀ (l : List α) (k k' : Nat) (x : α), l[k]? = some x → f x = true → k < k' → k' ≤ l.length →
      ((l.take k).filter f).length < ((l.take k').filter f).length := by
    intro l
    induction l with
    | nil => intro k k' x h; simp at h
    | cons y l ih =>
      intro k k' x h hx hk hk'
      cases k' with
      | zero => omega
      | succ k' =>
        cases k with
        | zero =>
          simp only [List.getElem?_cons_zero, Option.some.injEq] at h
          subst h
          simp [hx]
        | succ k =>
          have := ih k k' x (by simpa using h) hx (by omega) (by simpa using hk')
          by_cases hy : f y = true
          · simpa [hy] using this
          · simpa [hy] using this
  have hk := (List.getElem?_eq_some_iff.1 h).1
  have hk' := (List.getElem?_eq_some_iff.1 h').1
  rcases Nat.lt_trichotomy k k' with h1 | h1 | h1
  · have := key l k k' x h hx h1 (by omega)
    omega
  · exact h1
  · have := key l k' k x' h' hx' h1 (by omega)
    omega

theorem rendered_accs {v : Ver} {ops : List Op} {rs : List Res} {its : List Item} (h : Rendered v ops rs its) :
    progAccs v ops = its.flatMap fun it => it.txn.accs := by
  induction h with
  | nil => rfl
  | @ok r ops rs its hr _ ih =>
    rw [progAccs, List.flatMap_cons, realises_accs hr.real, List.flatMap_append, ← ih]
    simp only [Option.getD_some, List.flatMap_map]
    rfl
  | @refused op e ops rs its hn _ ih =>
    rw [progAccs, List.flatMap_cons, hn, ← ih]
    rfl

theorem accs_user (its : List Item) : (user its).flatMap (fun it => it.txn.accs) = its.flatMap fun it => it.txn.accs := by
  induction its with
  | nil => rfl
  | cons it its ih =>
    by_cases hb : it.txn = .bot
    · have hu : user (it :: its) = user its := by simp [user, hb]
      rw [hu, ih, List.flatMap_cons, hb]
      rfl
    · have hu : user (it :: its) = it :: user its := by simp [user, hb]
      rw [hu, List.flatMap_cons, List.flatMap_cons, ih]

theorem accs_fin (f : Fin') : f.txns.flatMap Txn.accs = f.g.items.flatMap fun it => it.txn.accs := by
  have h : ∀ (n o : Nat), (padItems o n).flatMap (fun it => it.txn.accs) = [] := by
    intro n
    induction n with
    | zero => intro o; rfl
    | succ n ih => intro o; rw [padItems, List.flatMap_cons, ih]; rfl
  rw [Fin'.txns, Fin'.all, List.flatMap_map, List.flatMap_append, h, List.append_nil]

theorem accs_fins (fs : List Fin') : pkAccs (fs.map Fin'.txns) = (fs.flatMap fun f => f.g.items).flatMap fun it => it.txn.accs := by
  induction fs with
  | nil => rfl
  | cons f fs ih =>
    rw [List.map_cons, List.flatMap_cons, List.flatMap_append, ← ih, ← accs_fin]
    rfl

end
end Verif
