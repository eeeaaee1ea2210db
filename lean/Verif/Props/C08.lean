import Verif.Lemmas.Demo
/-!
# C08 (with C03 client part, C05): packets decode to exactly the queued transactions; C45: no overrun

`T` is an arbitrary transport that returns or throws (`Transport.Total`): every theorem holds whatever it
answers and whenever it fails. `WF c`: packets are large enough for the preamble and the largest
indivisible transaction.
-/

set_option autoImplicit false

namespace Verif
open Spec
variable {τ : Type}

/-- C08. For every program, however its calls end: all packets parse exactly to their ends, and the
transactions in them, in order, are a rendering of the calls, one after the other. -/
theorem C08_program (c : Cfg) (T : Transport τ) (hw : WF c) (hT : T.Total) (ops : List Op)
    (hops : ∀ op ∈ ops, op.ok c) (t : τ) :
    ∃ rs s pk, runOps c T ops (St.init t) = some (rs, s) ∧
      parsePackets c.ver c.hub (wire s) = some pk ∧ Accounts c.ver ops rs (realTxns pk) := by
  obtain ⟨rs, s', l0, l, h1, h2, h3, ⟨pk, h4, h5⟩, h6⟩ := inv_run hw hT ops hops (Inv.init c t)
  have h0 : Sent c (St.init t) [] := ⟨[], rfl, rfl⟩
  have := h3.unique h0
  subst this
  refine ⟨rs, s', pk, h1, h4, ?_⟩
  rw [h5]; exact h6

/-- C08. A `dispatch` that returns leaves nothing behind: every packet has been handed to the transport. -/
theorem C08_dispatch_empties (c : Cfg) (T : Transport τ) (hw : WF c) (hT : T.Total) (s s' : St τ)
    (hI : Inv c s) (h : Option Handle) (hrun : Op.dispatch.run c T s = .ok h s') :
    s'.cur = none ∧ wire s' = s'.hist.map Buf.send := by
  obtain ⟨fs, G, hR⟩ := hI
  have hs := step hw (TOK_of_total hT) hR.rep .dispatch trivial
  rw [hrun] at hs
  cases hs with
  | ok _ _ G' its obj rep ext mono real hok tiles disp =>
    have : s'.cur = none := by rw [rep.cur, (disp rfl).2]; rfl
    exact ⟨this, by simp [wire, this]⟩

/-- C08. States reached by programs satisfy the hypothesis `Inv` of the one-call theorems. -/
theorem C08_reachable (c : Cfg) (T : Transport τ) (hw : WF c) (hT : T.Total) (ops : List Op)
    (hops : ∀ op ∈ ops, op.ok c) (t : τ) (rs : List Res) (s : St τ)
    (hrun : runOps c T ops (St.init t) = some (rs, s)) : Inv c s := by
  obtain ⟨rs', s', l0, l, h1, h2, _⟩ := inv_run hw hT ops hops (Inv.init c t)
  rw [hrun] at h1; cases h1; exact h2

/-- C45. No program runs into undefined behaviour (in particular: no write beyond the end of a send
buffer, no slice outside a result vector) or an endless loop. -/
theorem C45_defined (c : Cfg) (T : Transport τ) (hw : WF c) (hT : T.Total) (ops : List Op)
    (hops : ∀ op ∈ ops, op.ok c) (t : τ) :
    ∃ rs s, runOps c T ops (St.init t) = some (rs, s) ∧ rs.length = ops.length := by
  have hlen : ∀ {ops : List Op} {s s' : St τ} {rs : List Res}, runOps c T ops s = some (rs, s') → rs.length = ops.length := by
    intro ops
    induction ops with
    | nil => intro s s' rs h; simp [runOps] at h; simp [h.1.symm]
    | cons op ops ih =>
      intro s s' rs h
      unfold runOps at h
      cases hr : op.run c T s with
      | ok a s1 =>
        rw [hr] at h
        simp only [Option.map_eq_some_iff] at h
        obtain ⟨p, hp, he⟩ := h
        have := ih (rs := p.1) (s' := p.2) hp
        injection he with he _
        rw [← he]; simp [this]
      | exc a s1 =>
        rw [hr] at h
        simp only [Option.map_eq_some_iff] at h
        obtain ⟨p, hp, he⟩ := h
        have := ih (rs := p.1) (s' := p.2) hp
        injection he with he _
        rw [← he]; simp [this]
      | ub => rw [hr] at h; simp at h
      | loops => rw [hr] at h; simp at h
  obtain ⟨rs, s', l0, l, h1, _⟩ := inv_run hw hT ops hops (Inv.init c t)
  exact ⟨rs, s', h1, hlen h1⟩

/-- C05. A block write that returns appends to the wire transactions whose word accesses are exactly
`src` at `a, a+1, ...` (or all at `a`), none larger than the word-count field, none empty (unless the
whole block is). A block write that throws has sent a beginning of it. -/
theorem C05_block_write (c : Cfg) (T : Transport τ) (hw : WF c) (hT : T.Total) (s : St τ) (hI : Inv c s)
    (a : W) (src : List W) (inc : Bool) (hlen : src.length < 2 ^ 29) :
    ∃ l0, Sent c s l0 ∧
    ((∃ h s' p, (Op.writeBlock a src inc).run c T s = .ok h s' ∧ Sent c s' (l0 ++ p) ∧
        p.flatMap Txn.accs = List.zipWith .wr (addrs inc a src.length) src ∧
        (∀ t ∈ p, ∃ a' ds, t = .write inc a' ds ∧ ds.length ≤ wcMax c.ver ∧ (src ≠ [] → ds ≠ [])) ∧
        (src = [] → p = [.write inc a []])) ∨
     (∃ e s' p, (Op.writeBlock a src inc).run c T s = .exc e s' ∧ Sent c s' (l0 ++ p) ∧
        p.flatMap Txn.accs <+: List.zipWith .wr (addrs inc a src.length) src)) := by
  obtain ⟨l0, h0, h⟩ := inv_step hw hT hI (.writeBlock a src inc) hlen
  refine ⟨l0, h0, ?_⟩
  rcases h with ⟨h, s', p, h1, h2, h3, h4⟩ | ⟨e, s', p, h1, h2, h3, h4⟩
  · exact .inl ⟨h, s', p, h1, h3, h4⟩
  · exact .inr ⟨e, s', p, h1, h3, h4.1⟩

theorem zipWith_snd {α β : Type} : ∀ (l : List α) (l' : List β), l.length = l'.length → List.zipWith (fun _ d => d) l l' = l'
  | [], [], _ => rfl
  | _ :: l, _ :: l', h => by
    rw [List.zipWith_cons_cons, zipWith_snd l l' (by simpa using h)]
  | [], _ :: _, h => by simp at h
  | _ :: _, [], h => by simp at h

/-- C05, payloads: the data words of the transactions, concatenated in send order, are the caller's
vector. -/
theorem C05_payload (c : Cfg) (a : W) (src : List W) (inc : Bool) (p : List Txn)
    (hp : Realises c.ver (.writeBlock a src inc) p) :
    (p.map fun t => match t with
      | .write _ _ ds => ds
      | _ => []).flatten = src := by
  have key : ∀ p : List Txn, (∀ t ∈ p, ∃ a' ds, t = .write inc a' ds) →
      (p.map fun t => match t with
        | .write _ _ ds => ds
        | _ => []).flatten = (p.flatMap Txn.accs).map fun x => match x with
          | .wr _ d => d
          | _ => 0 := by
    intro p hp
    induction p with
    | nil => rfl
    | cons t p ih =>
      obtain ⟨a', ds, rfl⟩ := hp t (by simp)
      rw [List.map_cons, List.flatten_cons, ih (fun t ht => hp t (by simp [ht])), List.flatMap_cons, List.map_append]
      congr 1
      simp only [Txn.accs, List.map_zipWith]
      rw [zipWith_snd _ _ (addrs_length inc a' ds.length)]
  rw [key p (fun t ht => by obtain ⟨a', ds, h, _⟩ := hp.2.1 t ht; exact ⟨a', ds, h⟩), hp.1, List.map_zipWith]
  exact zipWith_snd _ _ (addrs_length inc a src.length)

/-- C03. A masked write whose value does not fit throws and leaves the client exactly as it was. -/
theorem C03_rejected (c : Cfg) (T : Transport τ) (s : St τ) (a d m : W)
    (h : maskedArg c.wrapNeg d m = .forbidden) :
    (Op.writeMasked a d m).run c T s = .exc .bitsForbidden s := by
  simp [Op.run, h]

/-- C03. A masked write whose value fits queues exactly one read-modify-write with the complement of the
mask and the value moved to the field, or the transport fails and nothing of it is sent. -/
theorem C03_accepted (c : Cfg) (T : Transport τ) (hw : WF c) (hT : T.Total) (s : St τ) (hI : Inv c s)
    (a d m : W) (k : Nat) (hm : MaskOK c.wrapNeg m) (hk : m.getLsbD k = true)
    (hlow : ∀ j, j < k → m.getLsbD j = false) (hfit : d.toNat * 2 ^ k < 2 ^ 32)
    (hin : ∀ i, d.getLsbD i = true → m.getLsbD (k + i) = true) :
    ∃ l0, Sent c s l0 ∧
    ((∃ h s', (Op.writeMasked a d m).run c T s = .ok h s' ∧
        Sent c s' (l0 ++ [.rmwBits a (~~~m) (BitVec.ofNat 32 (d.toNat * 2 ^ k))])) ∨
     (∃ e s', (Op.writeMasked a d m).run c T s = .exc e s' ∧ e ≠ .bitsForbidden ∧ Sent c s' l0)) := by
  obtain ⟨l0, h0, h⟩ := inv_step hw hT hI (.writeMasked a d m) hm
  refine ⟨l0, h0, ?_⟩
  rcases h with ⟨h, s', p, h1, h2, h3, k', e1, e2, e3, e3b, e4⟩ | ⟨e, s', p, h1, h2, h3, h4⟩
  · left
    have : k = k' := lowest_unique (m := m) ⟨BitVec.lt_of_getLsbD hk, hk, hlow⟩ ⟨BitVec.lt_of_getLsbD e1, e1, e2⟩
    subst this
    refine ⟨h, s', h1, ?_⟩
    rw [← e4]; exact h3
  · right
    have : p = [] := h4
    subst this
    rw [List.append_nil] at h3
    refine ⟨e, s', h1, ?_, h3⟩
    intro he
    subst he
    obtain ⟨x, o, hx⟩ := (C03_accept_iff c.wrapNeg d m k hm hk hlow).2 ⟨hfit, hin⟩
    obtain ⟨fs, G, hR⟩ := hI
    have hs := step hw (TOK_of_total hT) hR.rep (.writeMasked a d m) hm
    rw [h1] at hs
    cases hs with
    | forbidden a' d' m' hop hf => cases hop; rw [hx] at hf; cases hf
    | failed _ _ us fail real => obtain ⟨t, _, ht⟩ := fail.tr; exact ht rfl

/-- The hypotheses are met: a program with a block write, a masked write, a refused masked write, a
configuration read and a failing dispatch, on the default packet size. -/
example (src : List W) (h : src.length = 1000) := C08_program (demoCfg .v2) demoTr (demoCfg_wf _) demoTr_total
  [.write 1 2, .writeBlock 0x10 src true, .writeMasked 3 5 0xF0, .writeMasked 3 0x15 0xF0, .readConfig 1 noMask, .dispatch]
  (by simp [Op.ok, demoCfg, h]) [false, true]

/-- On the smallest possible packets the second write travels in a second packet. -/
example : ((runOps tinyCfg demoTr [.write 0x10 1, .rmwBits 0x11 2 3, .dispatch] (St.init [])).map fun p => wire p.2) =
    some [[0x200000F0, 0x2000011F, 0x10, 1], [0x200000F0, 0x2001014F, 0x11, 2, 3]] := by decide +kernel

end Verif
