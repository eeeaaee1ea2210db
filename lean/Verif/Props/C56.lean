import Verif.Props.C55World
/-!
# C56. ControlHub: requests to an IPbus 1.3 target

IPbus 1.3 has no packet IDs: the device client keeps one packet in flight and takes the next UDP packet from the target for the reply
(/repo/controlhub/src/ch_device_client.erl:350-361, 376-380, 394-413). What is proved assumes that no datagram is delivered after the next request
has been sent, and that no request is delivered twice (`Timely`). Without this it fails: `C56_violated_duplicate`.
-/

set_option autoImplicit false
set_option linter.unusedSimpArgs false

namespace Verif.Hub

/-! ## What is claimed -/

/-- An IPbus 1.3 target: the state of the hardware, and all packets executed so far with the replies. -/
structure Tgt13 (σ : Type) where
  st : σ
  log : List (Bytes × Bytes)

/-- It executes every IPbus 1.3 packet that arrives and answers with a datagram. -/
def Tgt13.recv {σ : Type} (exec : σ → Bytes → σ × Bytes) (t : Tgt13 σ) (p _junk : Bytes) : Tgt13 σ × List Bytes :=
  if is13 p then (⟨(exec t.st p).1, t.log ++ [(p, (exec t.st p).2)]⟩, [(exec t.st p).2]) else (t, [])

/-- Every datagram that is delivered was sent after the last request (or is that request), and those to the target are delivered once.
`used`: the indices of those delivered. -/
def Timely {τ : Type} (recv : τ → Bytes → Bytes → τ × List Bytes) (absMax : Nat) (s : World τ) (used : List Nat) : List WEv → Bool
  | [] => true
  | e :: es => (match e with
      | .toTarget i _ => match s.toT[i]? with
        | some d => decide (d.1 = s.sent.length) && !used.contains i
        | none => true
      | .toHub i => match s.toH[i]? with
        | some d => decide (d.1 = s.sent.length)
        | none => true
      | _ => true) &&
    match s.step recv absMax e with
    | some s' => Timely recv absMax s' (match e with
        | .toTarget i _ => i :: used
        | _ => used) es
    | none => true

/-- A request that was executed: its number, the packet, the client and the reply of the target. -/
structure Done where
  k : Nat
  pkt : Bytes
  pid : Nat
  reply : Bytes

/-- The IPbus 1.3 packets cast to the device client. -/
def casts13 (es : List WEv) : List (Bytes × Nat) := (casts es).filter fun r => is13 r.1

section
variable {σ : Type} {exec : σ → Bytes → σ × Bytes}

/-! ## Proofs -/

theorem parseControl_v1 (p : Bytes) : (∃ e, parseControl p = .v1 e) ↔ (is13 p = true) := by
  unfold parseControl is13
  split
  · rename_i a b c d r
    simp only [Bool.or_eq_true, Bool.and_eq_true, beq_iff_eq]
    by_cases h1 : a = 0x20 ∧ d = 0xf0
    · rw [if_pos h1]; exact ⟨fun ⟨e, he⟩ => by simp at he, fun h => by omega⟩
    · rw [if_neg h1]
      by_cases h2 : a = 0xf0 ∧ d = 0x20
      · rw [if_pos h2]; exact ⟨fun ⟨e, he⟩ => by simp at he, fun h => by omega⟩
      · rw [if_neg h2]
        by_cases h3 : a / 16 = 1 ∧ c = 0 ∧ d / 8 = 0x1f ∧ d % 4 = 0
        · rw [if_pos h3]; exact ⟨fun _ => .inl ⟨⟨⟨h3.1, h3.2.1⟩, h3.2.2.1⟩, h3.2.2.2⟩, fun _ => ⟨_, rfl⟩⟩
        · rw [if_neg h3]
          by_cases h4 : a / 8 = 0x1f ∧ a % 4 = 0 ∧ b = 0 ∧ d / 16 = 1
          · rw [if_pos h4]; exact ⟨fun _ => .inr ⟨⟨⟨h4.1, h4.2.1⟩, h4.2.2.1⟩, h4.2.2.2⟩, fun _ => ⟨_, rfl⟩⟩
          · rw [if_neg h4]
            exact ⟨fun ⟨e, he⟩ => by simp at he, fun h => by omega⟩
  · simp

/-- The invariant of the network. `S`: the status requests executed; `E`: the requests executed; `A`: those whose replies were forwarded. -/
structure Data (exec : σ → Bytes → σ × Bytes) (t0 : Tgt13 σ) (used : List Nat) (S : List (Bytes × Bytes)) (E A : List Done)
    (sent : List Flight) (T H : List (Nat × Bytes)) (t : Tgt13 σ) (fl : Option (Nat × Bytes)) (sc : List Msg) : Prop where
  flight : ∀ f, fl = some f → ∃ m, sent.length = m + 1 ∧ sent[m]? = some ⟨f.1, [], [], f.2⟩
  toT : ∀ (i : Nat) (d : Nat × Bytes), T[i]? = some d → (d.1 = 0 ∧ (d.2 = statusReq13 ∨ d.2 = statusReq)) ∨
    (∃ k f, d.1 = k + 1 ∧ sent[k]? = some f ∧ d.2 = f.body ∧ is13 f.body = true)
  uniq : ∀ (i j : Nat) (d d' : Nat × Bytes), T[i]? = some d → T[j]? = some d' → d.1 = d'.1 → 0 < d.1 → i = j
  toH : ∀ d ∈ H, d.1 ≤ sent.length ∧ ((d.1 = 0 ∧ d.2.take 4 = [0xfc, 0, 0, 0x10]) ∨ (∃ x ∈ E, d.1 = x.k + 1 ∧ d.2 = x.reply))
  exOrd : E.Pairwise (fun x y => x.k < y.k)
  exLt : ∀ x ∈ E, ∃ f, sent[x.k]? = some f ∧ f.body = x.pkt ∧ f.pid = x.pid
  exUsed : ∀ x ∈ E, ∀ (i : Nat) (d : Nat × Bytes), T[i]? = some d → d.1 = x.k + 1 → i ∈ used
  status : ∀ x ∈ S, x.1 = statusReq13
  zero : sent = [] → E = []
  log : t.log = t0.log ++ (S ++ E.map fun x => (x.pkt, x.reply))
  st : t.st = final exec t0.st ((S ++ E.map fun x => (x.pkt, x.reply)).map (·.1))
  reps : (S ++ E.map fun x => (x.pkt, x.reply)).map (·.2) = replies exec t0.st ((S ++ E.map fun x => (x.pkt, x.reply)).map (·.1))
  ansEx : A.Sublist E
  ansLt : fl ≠ none → ∀ x ∈ A, x.k + 1 < sent.length
  ans : sc = A.map fun x => ⟨x.pid, 0, x.reply⟩

theorem Data.init (t0 : Tgt13 σ) : Data exec t0 [] [] [] [] [] [] [] t0 none [] := by
  constructor <;> simp [final, replies]

/-- Nothing is in flight any more, without a reply. -/
theorem Data.drop {t0 : Tgt13 σ} {used S E A sent toT toH tgt flight succ} (h : Data exec t0 used S E A sent toT toH tgt flight succ) :
    Data exec t0 used S E A sent toT toH tgt none succ :=
  { h with flight := by simp, ansLt := by simp }

/-- A status request is sent. -/
theorem Data.ask {t0 : Tgt13 σ} {used S E A toT toH tgt flight succ} (h : Data exec t0 used S E A [] toT toH tgt flight succ)
    {ps : List Bytes} (hps : ∀ p ∈ ps, p = statusReq13 ∨ p = statusReq) :
    Data exec t0 used S E A [] (toT ++ ps.map fun b => (0, b)) toH tgt flight succ := by
  have hnew : ∀ (i : Nat) (d : Nat × Bytes), (toT ++ ps.map fun b => (0, b))[i]? = some d → toT[i]? = some d ∨ (d.1 = 0 ∧ d.2 ∈ ps) := by
    intro i d hd
    rw [List.getElem?_append] at hd
    split at hd
    · exact .inl hd
    · obtain ⟨b, hb, rfl⟩ := List.mem_map.mp (List.mem_of_getElem? hd)
      exact .inr ⟨rfl, hb⟩
  refine { h with toT := ?_, uniq := ?_, exUsed := ?_ }
  · intro i d hd
    rcases hnew i d hd with hd | ⟨h1, h2⟩
    · exact h.toT i d hd
    · exact .inl ⟨h1, hps _ h2⟩
  · intro i j d d' hd hd' he hpos
    rcases hnew i d hd with hd | ⟨h1, h2⟩
    · rcases hnew j d' hd' with hd' | ⟨h1', h2'⟩
      · exact h.uniq i j d d' hd hd' he hpos
      · omega
    · omega
  · rw [h.zero rfl]; simp

/-- A request is sent. -/
theorem Data.send {t0 : Tgt13 σ} {used S E A sent toT toH tgt succ} (h : Data exec t0 used S E A sent toT toH tgt none succ)
    {pid : Nat} {pkt : Bytes} (hp : is13 pkt = true) :
    Data exec t0 used S E A (sent ++ [⟨pid, [], [], pkt⟩]) (toT ++ [(sent.length + 1, pkt)]) toH tgt (some (pid, pkt)) succ := by
  have hnew : ∀ (i : Nat) (d : Nat × Bytes), (toT ++ [(sent.length + 1, pkt)])[i]? = some d →
      (toT[i]? = some d ∧ d.1 ≤ sent.length) ∨ (i = toT.length ∧ d = (sent.length + 1, pkt)) := by
    intro i d hd
    rw [List.getElem?_append] at hd
    split at hd
    · refine .inl ⟨hd, ?_⟩
      rcases h.toT i d hd with ⟨h1, _⟩ | ⟨k, f, h1, h2, _⟩
      · omega
      · have := lt_of_get h2; omega
    · have := lt_of_get hd
      have hi : i = toT.length := by simp at this; omega
      subst hi
      simp at hd
      exact .inr ⟨rfl, hd.symm⟩
  refine { h with flight := ?_, toT := ?_, uniq := ?_, toH := ?_, exLt := ?_, exUsed := ?_, zero := by simp, ansLt := ?_ }
  · rintro f hf
    cases hf
    exact ⟨sent.length, by simp, by simp⟩
  · intro i d hd
    rcases hnew i d hd with ⟨hd, _⟩ | ⟨_, rfl⟩
    · rcases h.toT i d hd with h1 | ⟨k, f, h1, h2, h3⟩
      · exact .inl h1
      · exact .inr ⟨k, f, h1, get_append h2, h3⟩
    · exact .inr ⟨sent.length, _, rfl, by simp; rfl, rfl, hp⟩
  · intro i j d d' hd hd' he hpos
    rcases hnew i d hd with ⟨hd, hl⟩ | ⟨hi, rfl⟩
    · rcases hnew j d' hd' with ⟨hd', hl'⟩ | ⟨hj, rfl⟩
      · exact h.uniq i j d d' hd hd' he hpos
      · simp at he; omega
    · rcases hnew j d' hd' with ⟨hd', hl'⟩ | ⟨hj, rfl⟩
      · simp at he; omega
      · omega
  · intro d hd
    obtain ⟨h1, h2⟩ := h.toH d hd
    exact ⟨by simp; omega, h2⟩
  · intro x hx
    obtain ⟨f, h1, h2⟩ := h.exLt x hx
    exact ⟨f, get_append h1, h2⟩
  · intro x hx i d hd he
    obtain ⟨f, h1, h2⟩ := h.exLt x hx
    have := lt_of_get h1
    rcases hnew i d hd with ⟨hd, hl⟩ | ⟨hi, rfl⟩
    · exact h.exUsed x hx i d hd he
    · simp at he; omega
  · intro _ x hx
    obtain ⟨f, h1, h2⟩ := h.exLt x (h.ansEx.subset hx)
    have := lt_of_get h1
    simp; omega

/-- A reply that is not late is forwarded. -/
theorem Data.answer {t0 : Tgt13 σ} {used S E A sent toT toH tgt succ} {f : Nat × Bytes} {d : Nat × Bytes}
    (h : Data exec t0 used S E A sent toT toH tgt (some f) succ) (hd : d ∈ toH) (hl : d.1 = sent.length) :
    ∃ A', Data exec t0 used S E A' sent toT toH tgt none (succ ++ [⟨f.1, 0, d.2⟩]) := by
  obtain ⟨m, hm, hf⟩ := h.flight f rfl
  obtain ⟨_, h1 | ⟨x, hx, h1, h2⟩⟩ := h.toH d hd
  · omega
  · have hk : x.k = m := by omega
    obtain ⟨g, hg, hg1, hg2⟩ := h.exLt x hx
    rw [hk, hf] at hg
    cases hg
    obtain ⟨E1, E2, rfl⟩ := List.append_of_mem hx
    have hE2 : E2 = [] := by
      cases E2 with
      | nil => rfl
      | cons y ys =>
        exfalso
        have h3 := List.pairwise_append.mp h.exOrd
        have h4 := (List.pairwise_cons.mp h3.2.1).1 y (by simp)
        obtain ⟨g, hg, _⟩ := h.exLt y (by simp)
        have := lt_of_get hg
        omega
    subst hE2
    have hA : A.Sublist E1 := by
      obtain ⟨l1, l2, rfl, h1, h2⟩ := List.sublist_append_iff.mp h.ansEx
      cases h2 with
      | cons _ h3 => rw [List.sublist_nil.mp h3]; simpa using h1
      | cons_cons _ h3 =>
        exfalso
        have := h.ansLt (by simp) x (by simp)
        omega
    refine ⟨A ++ [x], { h with flight := by simp, ansEx := hA.append (List.Sublist.refl _), ansLt := by simp, ans := ?_ }⟩
    rw [h.ans, List.map_append, h2, List.map_singleton, ← hg2]

/-- The target receives a datagram that is not late, for the first time. -/
theorem Data.recv {t0 : Tgt13 σ} {used S E A sent toT toH tgt flight succ} {i : Nat} {d : Nat × Bytes}
    (hst : ∀ st, (exec st statusReq13).2.take 4 = [0xfc, 0, 0, 0x10])
    (h : Data exec t0 used S E A sent toT toH tgt flight succ) (hd : toT[i]? = some d) (hl : d.1 = sent.length) (hu : i ∉ used)
    (junk : Bytes) :
    ∃ S' E', Data exec t0 (i :: used) S' E' A sent toT (toH ++ (Tgt13.recv exec tgt d.2 junk).2.map fun b => (sent.length, b))
      (Tgt13.recv exec tgt d.2 junk).1 flight succ := by
  have hmono : Data exec t0 (i :: used) S E A sent toT toH tgt flight succ :=
    { h with exUsed := fun x hx j d hd he => List.mem_cons_of_mem _ (h.exUsed x hx j d hd he) }
  rcases h.toT i d hd with ⟨h0, h1 | h1⟩ | ⟨k, f, hk, hf, hb, h13⟩
  · have hs : sent = [] := List.length_eq_zero_iff.mp (by omega)
    have hE := h.zero hs
    subst hE
    have hr : is13 d.2 = true := by rw [h1]; decide
    simp only [Tgt13.recv, hr, if_true]
    refine ⟨S ++ [(d.2, (exec tgt.st d.2).2)], [], { hmono with toH := ?_, status := ?_, log := ?_, st := ?_, reps := ?_ }⟩
    · intro d' hd'
      rcases List.mem_append.mp hd' with hd' | hd'
      · exact h.toH d' hd'
      · simp at hd'
        subst hd'
        exact ⟨Nat.le_refl _, .inl ⟨by simp [hs], by rw [h1]; exact hst _⟩⟩
    · intro x hx
      rcases List.mem_append.mp hx with hx | hx
      · exact h.status x hx
      · simp at hx; subst hx; exact h1
    · simp [h.log]
    · have := h.st
      simp only [List.map_nil, List.append_nil] at this
      rw [List.map_nil, List.append_nil, List.map_append, List.map_singleton, final_snoc, ← this]
    · have h2 := h.st
      have h3 := h.reps
      simp only [List.map_nil, List.append_nil] at h2 h3
      rw [List.map_nil, List.append_nil, List.map_append, List.map_append, List.map_singleton, List.map_singleton, replies_snoc, ← h2, ← h3]
  · have hr : is13 d.2 = false := by rw [h1]; decide
    simp only [Tgt13.recv, hr, Bool.false_eq_true, if_false, List.map_nil, List.append_nil]
    exact ⟨S, E, hmono⟩
  · have hr : is13 d.2 = true := by rw [hb]; exact h13
    simp only [Tgt13.recv, hr, if_true]
    refine ⟨S, E ++ [⟨k, d.2, f.pid, (exec tgt.st d.2).2⟩], { hmono with toH := ?_, exOrd := ?_, exLt := ?_, exUsed := ?_, zero := ?_, log := ?_, st := ?_, reps := ?_, ansEx := ?_ }⟩
    · intro d' hd'
      rcases List.mem_append.mp hd' with hd' | hd'
      · obtain ⟨h1, h2 | ⟨x, hx, h2⟩⟩ := h.toH d' hd'
        · exact ⟨h1, .inl h2⟩
        · exact ⟨h1, .inr ⟨x, by simp [hx], h2⟩⟩
      · simp at hd'
        subst hd'
        exact ⟨Nat.le_refl _, .inr ⟨⟨k, d.2, f.pid, (exec tgt.st d.2).2⟩, by simp, by simp; omega, rfl⟩⟩
    · rw [List.pairwise_append]
      refine ⟨h.exOrd, by simp, ?_⟩
      intro x hx y hy
      simp at hy
      subst hy
      obtain ⟨g, hg, _⟩ := h.exLt x hx
      have h5 := lt_of_get hg
      by_cases he : x.k = k
      · exact absurd (h.exUsed x hx i d hd (by omega)) hu
      · show x.k < k
        omega
    · intro x hx
      rcases List.mem_append.mp hx with hx | hx
      · exact h.exLt x hx
      · simp at hx; subst hx; exact ⟨f, hf, hb.symm, rfl⟩
    · intro x hx j d' hd' he
      rcases List.mem_append.mp hx with hx | hx
      · exact List.mem_cons_of_mem _ (h.exUsed x hx j d' hd' he)
      · simp at hx; subst hx
        rw [h.uniq j i d' d hd' hd (by simp at he; omega) (by simp at he; omega)]
        simp
    · intro hs; subst hs; simp at hf
    · simp [h.log]
    · rw [List.map_append (l₁ := E), ← List.append_assoc, List.map_append (l₁ := S ++ _), List.map_singleton, List.map_singleton, final_snoc, ← h.st]
    · rw [List.map_append (l₁ := E), ← List.append_assoc, List.map_append (l₁ := S ++ _), List.map_append (l₁ := S ++ _), List.map_singleton,
        List.map_singleton, List.map_singleton, replies_snoc, ← h.st, ← h.reps]
    · exact h.ansEx.trans (List.sublist_append_left _ _)

/-- The messages with replies. -/
def goods (ms : List Msg) : List Msg := ms.filter fun m => decide (m.code = 0)

/-- The invariant of the process. -/
structure Ctl (taken : List (Bytes × Nat)) (d : DC) (sent : List Flight) : Prop where
  phase : (d.phase = .idle ∧ taken = [] ∧ sent = []) ∨ (∃ v l pkt pid, d.phase = .asking v l pkt pid ∧ taken = [(pkt, pid)] ∧ sent = []) ∨
    (∃ n, d.phase = .one n ∧ sent.map (fun f => (f.body, f.pid)) = taken.filter fun r => is13 r.1) ∨
    ((d.phase = .ended ∨ ∃ pid, d.phase = .failed pid) ∧ sent.map (fun f => (f.body, f.pid)) <+: taken.filter fun r => is13 r.1)
  h : d.h = ⟨.normal, 0, 0, [], 0, []⟩
  flight : (∀ n, d.phase ≠ .one n) → d.flight = none

structure I13 (exec : σ → Bytes → σ × Bytes) (t0 : Tgt13 σ) (used : List Nat) (cs : List (Bytes × Nat)) (s : World (Tgt13 σ)) : Prop where
  ctl : ∃ taken, Ctl taken s.dc s.sent ∧ taken ++ s.dc.inbox <+: cs ∧ (s.dc.gone = false → taken ++ s.dc.inbox = cs)
  data : ∃ S E A, Data exec t0 used S E A s.sent s.toT s.toH s.tgt s.dc.flight (goods s.dc.rest)

theorem I13.init (t0 : Tgt13 σ) : I13 exec t0 [] [] (World.init t0) where
  ctl := ⟨[], ⟨.inl ⟨rfl, rfl, rfl⟩, rfl, fun _ => rfl⟩, by simp [World.init, DC.init], fun _ => rfl⟩
  data := ⟨[], [], [], Data.init t0⟩

theorem goods_drain {d : DC} {code : Nat} (hc : code ≠ 0) : goods (d.drain code).rest = goods d.rest := by
  have : goods (d.inbox.map fun x => (⟨x.2, code, []⟩ : Msg)) = [] := by
    rw [goods, List.filter_eq_nil_iff]
    intro a ha
    obtain ⟨x, _, rfl⟩ := List.mem_map.mp ha
    simpa using hc
  simp only [goods] at this
  simp only [goods, DC.drain, List.filter_append, this, List.append_nil]

theorem goods_snoc {ms : List Msg} {pid code : Nat} (hc : code ≠ 0) : goods (ms ++ [⟨pid, code, []⟩]) = goods ms := by
  simp [goods, hc]

theorem gone_phase {d : DC} (h : d.h.mode = .normal) : d.gone = true ↔ d.phase = .ended ∨ ∃ pid, d.phase = .failed pid := by
  unfold DC.gone
  split <;> simp_all

theorem send13_yes {d : DC} {pkt : Bytes} {pid : Nat} (h : is13 pkt = true) :
    d.send13 pkt pid = ({ d with flight := some (pid, pkt) }, [pkt]) := by
  obtain ⟨e, he⟩ := (parseControl_v1 pkt).mpr h
  unfold DC.send13
  rw [he]

theorem send13_no {d : DC} {pkt : Bytes} {pid : Nat} (h : ¬ is13 pkt = true) :
    d.send13 pkt pid = ({ d with rest := d.rest ++ [⟨pid, 6, []⟩] }, []) := by
  unfold DC.send13
  split
  · rename_i e he; exact absurd ((parseControl_v1 pkt).mp ⟨e, he⟩) h
  · rfl

theorem newSent_keep {d d' : DC} (hq : d'.h.q = []) (hf : d'.flight = d.flight ∨ d'.flight = none) : newSent d d' = [] := by
  unfold newSent
  rw [hq]
  rcases hf with hf | hf <;> rw [hf] <;> cases d.flight <;> simp

/-- What becomes of a packet that is taken from the mailbox in the loop. -/
theorem send_step {t0 : Tgt13 σ} {used : List Nat} {taken : List (Bytes × Nat)} {s : World (Tgt13 σ)} {d : DC} {pkt : Bytes} {pid : Nat} {S E A}
    (hreq : s.sent.map (fun f => (f.body, f.pid)) = taken.filter fun r => is13 r.1)
    (hD : Data exec t0 used S E A s.sent s.toT s.toH s.tgt none (goods d.rest)) (hph : d.phase = .one none)
    (hh : d.h = ⟨.normal, 0, 0, [], 0, []⟩) (hdf : d.flight = none) (hsf : s.dc.flight = none) :
    Ctl (taken ++ [(pkt, pid)]) (d.send13 pkt pid).1 (s.sent ++ newSent s.dc (d.send13 pkt pid).1) ∧
    Data exec t0 used S E A (s.sent ++ newSent s.dc (d.send13 pkt pid).1)
      (s.toT ++ (d.send13 pkt pid).2.map fun b => ((s.sent ++ newSent s.dc (d.send13 pkt pid).1).length, b)) s.toH s.tgt
      (d.send13 pkt pid).1.flight (goods (d.send13 pkt pid).1.rest) ∧ (d.send13 pkt pid).1.inbox = d.inbox ∧
    (d.send13 pkt pid).1.gone = false := by
  by_cases h13 : is13 pkt = true
  · rw [send13_yes h13]
    have hn : newSent s.dc { d with flight := some (pid, pkt) } = [⟨pid, [], [], pkt⟩] := by
      simp [newSent, hsf, hh]
    rw [hn]
    simp only [List.length_append, List.length_singleton, List.map_cons, List.map_nil]
    refine ⟨⟨.inr (.inr (.inl ⟨none, hph, ?_⟩)), hh, fun h => absurd hph (h none)⟩, hD.send h13, trivial, ?_⟩
    · rw [List.map_append, List.filter_append, hreq]
      simp [h13]
    · simp [DC.gone, hph]
  · rw [send13_no h13]
    have hn : newSent s.dc { d with rest := d.rest ++ [⟨pid, 6, []⟩] } = [] :=
      newSent_keep (by simp [hh]) (.inr hdf)
    rw [hn]
    simp only [List.append_nil, List.map_nil]
    refine ⟨⟨.inr (.inr (.inl ⟨none, hph, ?_⟩)), hh, fun h => absurd hph (h none)⟩, ?_, trivial, ?_⟩
    · rw [List.filter_append, hreq]
      simp [h13]
    · rw [goods_snoc (by decide)]
      show Data _ _ _ _ _ _ _ _ _ _ d.flight _
      rw [hdf]; exact hD
    · simp [DC.gone, hph]

/-- What `Timely` says of one step. -/
def TimelyEv {τ : Type} (s : World τ) (used : List Nat) : WEv → Prop
  | .toTarget i _ => ∀ d, s.toT[i]? = some d → d.1 = s.sent.length ∧ i ∉ used
  | .toHub i => ∀ d, s.toH[i]? = some d → d.1 = s.sent.length
  | _ => True

def usedAfter (used : List Nat) : WEv → List Nat
  | .toTarget i _ => i :: used
  | _ => used

theorem I13.step {absMax : Nat} {t0 : Tgt13 σ} {used : List Nat} {cs : List (Bytes × Nat)} {s s' : World (Tgt13 σ)} {ev : WEv}
    (hst : ∀ st, (exec st statusReq13).2.take 4 = [0xfc, 0, 0, 0x10]) (h : I13 exec t0 used cs s) (ht : TimelyEv s used ev)
    (hs : s.step (Tgt13.recv exec) absMax ev = some s') : I13 exec t0 (usedAfter used ev) (cs ++ casts [ev]) s' := by
  obtain ⟨⟨taken, hc, hpre, heq⟩, S, E, A, hD⟩ := h
  have hmode : s.dc.h.mode = .normal := by rw [hc.h]
  cases ev with
  | cast pkt pid =>
    simp only [World.step, World.proc, DC.step] at hs
    cases hg : s.dc.gone with
    | true =>
      rw [hg, if_pos rfl] at hs
      simp only [newSent_keep (d := s.dc) (d' := s.dc) (by rw [hc.h]) (.inl rfl), List.append_nil, List.map_nil, Option.some.injEq] at hs
      subst hs
      exact ⟨⟨taken, hc, hpre.trans (List.prefix_append _ _), fun h => by rw [hg] at h; cases h⟩, S, E, A, hD⟩
    | false =>
      rw [hg, if_neg (by simp)] at hs
      simp only [newSent_keep (d := s.dc) (d' := { s.dc with inbox := s.dc.inbox ++ [(pkt, pid)] }) (by simp [hc.h]) (.inl rfl), List.append_nil,
        List.map_nil, Option.some.injEq] at hs
      subst hs
      have : taken ++ (s.dc.inbox ++ [(pkt, pid)]) = cs ++ casts [.cast pkt pid] := by rw [← heq hg]; simp [casts]
      exact ⟨⟨taken, ⟨hc.phase, hc.h, hc.flight⟩, by rw [this]; exact List.prefix_refl _, fun _ => this⟩, S, E, A, hD⟩
  | take =>
    simp only [World.step, World.proc, DC.step] at hs
    cases hg : s.dc.gone with
    | true => simp [hg] at hs
    | false =>
      have heq := heq hg
      simp only [hg, Bool.false_eq_true, if_false, DC.take] at hs
      cases hi : s.dc.inbox with
      | nil => simp [hi] at hs
      | cons y r =>
        rw [hi] at heq hpre
        simp only [hi] at hs
        rcases hc.phase with ⟨hp, htk, hsn⟩ | ⟨v, l, pkt, pid, hp, htk, hsn⟩ | ⟨n, hp, hreq⟩ | ⟨hp, hreq⟩
        · have hfl : s.dc.flight = none := hc.flight (by simp [hp])
          simp only [hp] at hs
          cases hv : firstVersion y.1 with
          | none =>
            simp only [hv] at hs
            simp only [newSent_keep (d := s.dc) (d' := { s.dc with phase := .failed y.2, inbox := r }) (by simp [hc.h]) (.inl rfl),
              List.append_nil, List.map_nil, Option.some.injEq] at hs
            subst hs
            refine ⟨⟨taken ++ [y], ⟨.inr (.inr (.inr ⟨.inr ⟨_, rfl⟩, by rw [hsn]; simp⟩)), hc.h, fun _ => hfl⟩, ?_, ?_⟩, S, E, A, hD⟩
            · rw [← heq]; simp [casts]
            · intro _; rw [← heq]; simp [casts]
          | some v =>
            simp only [hv] at hs
            simp only [newSent_keep (d := s.dc) (d' := { s.dc with phase := .asking v 5 y.1 y.2, inbox := r }) (by simp [hc.h]) (.inl rfl),
              List.append_nil, Option.some.injEq, hsn, List.length_nil] at hs
            subst hs
            refine ⟨⟨taken ++ [y], ⟨.inr (.inl ⟨v, 5, y.1, y.2, rfl, by rw [htk]; rfl, rfl⟩), hc.h, fun _ => hfl⟩, ?_, ?_⟩, S, E, A, ?_⟩
            · rw [← heq]; simp [casts]
            · intro _; rw [← heq]; simp [casts]
            · rw [hsn] at hD
              exact hD.ask fun p hp => by
                rw [askDgrams_mem hp]
                cases v <;> simp
        · simp only [hp] at hs; cases hs
        · simp only [hp] at hs
          cases n with
          | some n => simp at hs
          | none =>
            simp only at hs
            by_cases hfl : s.dc.flight = none
            · rw [if_pos hfl] at hs
              rw [hfl] at hD
              obtain ⟨h1, h2, h3, h4⟩ := send_step (d := { s.dc with phase := .one none, inbox := r }) (pkt := y.1) (pid := y.2) hreq hD rfl hc.h hfl hfl
              simp only [Option.some.injEq] at hs
              subst hs
              refine ⟨⟨taken ++ [y], h1, ?_, ?_⟩, S, E, A, h2⟩
              · simp only [h3]; rw [← heq]; simp [casts]
              · intro _; simp only [h3]; rw [← heq]; simp [casts]
            · rw [if_neg hfl] at hs; cases hs
        · rw [(gone_phase hmode).mpr hp] at hg; cases hg
  | toTarget i junk =>
    simp only [World.step] at hs
    cases hd : s.toT[i]? with
    | none => simp [hd] at hs
    | some d =>
      simp only [hd] at hs
      split at hs
      · simp only [Option.some.injEq] at hs
        subst hs
        obtain ⟨h1, h2⟩ := ht d hd
        obtain ⟨S', E', h3⟩ := hD.recv hst hd h1 h2 junk
        refine ⟨⟨taken, hc, by simpa [casts] using hpre, by simpa [casts] using heq⟩, S', E', A, h3⟩
      · cases hs
  | toHub i =>
    simp only [World.step] at hs
    cases hd : s.toH[i]? with
    | none => simp [hd] at hs
    | some d =>
      have hl := ht d hd
      have hmem := List.mem_of_getElem? hd
      simp only [hd, World.proc, DC.step] at hs
      cases hg : s.dc.gone with
      | true => simp [hg] at hs
      | false =>
        have heq := heq hg
        simp only [hg, Bool.false_eq_true, if_false, DC.udp] at hs
        rcases hc.phase with ⟨hp, htk, hsn⟩ | ⟨v, l, pkt, pid, hp, htk, hsn⟩ | ⟨n, hp, hreq⟩ | ⟨hp, hreq⟩
        · simp only [hp] at hs; cases hs
        · have hfl : s.dc.flight = none := hc.flight (by simp [hp])
          have h0 : d.2.take 4 = [0xfc, 0, 0, 0x10] := by
            obtain ⟨_, ⟨_, h⟩ | ⟨x, hx, _⟩⟩ := hD.toH d hmem
            · exact h
            · rw [hD.zero hsn] at hx; cases hx
          have hta : askTakes d.2 = true := by simp [askTakes, h0]
          simp only [hp] at hs
          rw [if_pos hta, if_pos h0] at hs
          rw [hfl] at hD
          obtain ⟨h1, h2, h3, h4⟩ := send_step (taken := []) (d := { s.dc with phase := .one none }) (pkt := pkt) (pid := pid)
            (by rw [hsn]; rfl) hD rfl hc.h hfl hfl
          simp only [Option.some.injEq] at hs
          subst hs
          rw [htk] at heq hpre
          refine ⟨⟨_, h1, ?_, ?_⟩, S, E, A, h2⟩
          · simp only [h3]; simpa [casts] using hpre
          · intro _; simp only [h3]; simpa [casts] using heq
        · simp only [hp] at hs
          unfold DC.forward13 at hs
          cases hfl : s.dc.flight with
          | none =>
            simp only [hfl] at hs
            rw [newSent_keep (by simp [hc.h]) (.inl (by first | rfl | simp [hfl]))] at hs
            simp only [List.append_nil, List.map_nil, Option.some.injEq] at hs
            subst hs
            refine ⟨⟨taken, ⟨.inr (.inr (.inl ⟨none, rfl, hreq⟩)), hc.h, fun h => absurd rfl (h none)⟩, by simpa [casts] using hpre,
              by simpa [casts] using fun _ => heq⟩, S, E, A, ?_⟩
            rw [hfl] at hD
            simpa [hfl, usedAfter] using hD
          | some f =>
            simp only [hfl] at hs
            rw [newSent_keep (by simp [hc.h]) (.inr rfl)] at hs
            simp only [List.append_nil, List.map_nil, Option.some.injEq] at hs
            subst hs
            rw [hfl] at hD
            obtain ⟨A', hA⟩ := hD.answer hmem hl
            refine ⟨⟨taken, ⟨.inr (.inr (.inl ⟨none, rfl, hreq⟩)), hc.h, fun h => absurd rfl (h none)⟩, by simpa [casts] using hpre,
              by simpa [casts] using fun _ => heq⟩, S, E, A', ?_⟩
            simpa [goods, usedAfter] using hA
        · rw [(gone_phase hmode).mpr hp] at hg; cases hg
  | timeout =>
    simp only [World.step, World.proc, DC.step] at hs
    cases hg : s.dc.gone with
    | true => simp [hg] at hs
    | false =>
      have heq := heq hg
      simp only [hg, Bool.false_eq_true, if_false, DC.timeout] at hs
      rcases hc.phase with ⟨hp, htk, hsn⟩ | ⟨v, l, pkt, pid, hp, htk, hsn⟩ | ⟨n, hp, hreq⟩ | ⟨hp, hreq⟩
      · simp only [hp] at hs; cases hs
      · have hfl : s.dc.flight = none := hc.flight (by simp [hp])
        simp only [hp] at hs
        by_cases hl : l = 1
        · rw [if_pos hl] at hs
          simp only [newSent_keep (d := s.dc) (d' := s.dc.refuse pid 3) (by simp [DC.refuse, DC.drain, hc.h]) (.inl rfl),
            List.append_nil, List.map_nil, Option.some.injEq] at hs
          subst hs
          refine ⟨⟨taken, ⟨.inr (.inr (.inr ⟨.inl rfl, by rw [hsn]; simp⟩)), hc.h, fun _ => hfl⟩, ?_, ?_⟩, S, E, A, ?_⟩
          · refine List.IsPrefix.trans ?_ (hpre.trans (List.prefix_append _ _))
            simp [DC.refuse, DC.drain]
          · intro h; simp [DC.gone, DC.refuse, DC.drain] at h
          · simp only [DC.refuse]
            rw [goods_drain (by decide)]
            show Data _ _ _ _ _ _ _ _ _ _ s.dc.flight (goods (s.dc.rest ++ _))
            rw [goods_snoc (by decide)]
            exact hD
        · rw [if_neg hl] at hs
          simp only [newSent_keep (d := s.dc) (d' := { s.dc with phase := .asking v (l - 1) pkt pid }) (by simp [hc.h]) (.inl rfl),
            List.append_nil, Option.some.injEq, hsn, List.length_nil] at hs
          subst hs
          refine ⟨⟨taken, ⟨.inr (.inl ⟨v, l - 1, pkt, pid, rfl, htk, rfl⟩), hc.h, fun _ => hfl⟩, ?_, ?_⟩, S, E, A, ?_⟩
          · simpa [casts] using hpre
          · intro _; simpa [casts] using heq
          · rw [hsn] at hD
            exact hD.ask fun p hp => by
              rw [askDgrams_mem hp]
              cases v <;> simp
      · simp only [hp] at hs
        cases hfl : s.dc.flight with
        | none =>
          simp only [hfl] at hs
          by_cases hi : s.dc.inbox = []
          · rw [if_pos hi] at hs
            simp only at hs
            rw [newSent_keep (by simp [hc.h]) (.inr (by first | rfl | simp [hfl]))] at hs
            simp only [List.append_nil, List.map_nil, Option.some.injEq] at hs
            subst hs
            refine ⟨⟨taken, ⟨.inr (.inr (.inr ⟨.inl rfl, by rw [← hreq]; exact List.prefix_refl _⟩)), hc.h, fun _ => by first | rfl | exact hfl⟩,
              by simpa [casts] using hpre, by simpa [casts] using fun _ => heq⟩, S, E, A, ?_⟩
            rw [hfl] at hD
            simpa [hfl, usedAfter] using hD
          · rw [if_neg hi] at hs; cases hs
        | some f =>
          simp only [hfl] at hs
          cases n with
          | none =>
            simp only at hs
            rw [newSent_keep (by simp [hc.h]) (.inl (by first | rfl | simp [hfl]))] at hs
            simp only [List.append_nil, List.map_nil, Option.some.injEq] at hs
            subst hs
            refine ⟨⟨taken, ⟨.inr (.inr (.inl ⟨some 0, rfl, hreq⟩)), hc.h, fun h => absurd rfl (h (some 0))⟩, by simpa [casts] using hpre,
              by simpa [casts] using fun _ => heq⟩, S, E, A, ?_⟩
            rw [hfl] at hD
            simpa [hfl, usedAfter] using hD
          | some k =>
            simp only at hs
            by_cases hk : k + 1 = 3
            · rw [if_pos hk] at hs
              simp only at hs
              rw [newSent_keep (by simp [DC.drain, hc.h]) (.inr rfl)] at hs
              simp only [List.append_nil, List.map_nil, Option.some.injEq] at hs
              subst hs
              refine ⟨⟨taken, ⟨.inr (.inr (.inr ⟨.inl rfl, by rw [← hreq]; exact List.prefix_refl _⟩)), hc.h, fun _ => rfl⟩, ?_, ?_⟩, S, E, A, ?_⟩
              · refine List.IsPrefix.trans ?_ (hpre.trans (List.prefix_append _ _))
                simp [DC.drain]
              · intro h; simp [DC.gone, DC.drain] at h
              · rw [goods_drain (by decide)]
                show Data _ _ _ _ _ _ _ _ _ _ none (goods (s.dc.rest ++ _))
                rw [goods_snoc (by decide)]
                exact hD.drop
            · rw [if_neg hk] at hs
              simp only at hs
              rw [newSent_keep (by simp [hc.h]) (.inl (by first | rfl | simp [hfl]))] at hs
              simp only [List.append_nil, List.map_nil, Option.some.injEq] at hs
              subst hs
              refine ⟨⟨taken, ⟨.inr (.inr (.inl ⟨some (k + 1), rfl, hreq⟩)), hc.h, fun h => absurd rfl (h (some (k + 1)))⟩,
                by simpa [casts] using hpre, by simpa [casts] using fun _ => heq⟩, S, E, A, ?_⟩
              rw [hfl] at hD
              simpa [hfl, usedAfter] using hD
      · rw [(gone_phase hmode).mpr hp] at hg; cases hg

theorem I13.run {absMax : Nat} {t0 : Tgt13 σ} (hst : ∀ st, (exec st statusReq13).2.take 4 = [0xfc, 0, 0, 0x10]) (es : List WEv) :
    ∀ (used : List Nat) (cs : List (Bytes × Nat)) (s s' : World (Tgt13 σ)), I13 exec t0 used cs s → Timely (Tgt13.recv exec) absMax s used es = true →
    s.run (Tgt13.recv exec) absMax es = some s' → ∃ used', I13 exec t0 used' (cs ++ casts es) s' := by
  induction es with
  | nil =>
    intro used cs s s' h _ hr
    simp only [World.run, Option.some.injEq] at hr
    subst hr
    exact ⟨used, by simpa [casts] using h⟩
  | cons e es ih =>
    intro used cs s s' h ht hr
    simp only [World.run] at hr
    cases hs : s.step (Tgt13.recv exec) absMax e with
    | none => simp [hs] at hr
    | some s1 =>
      simp only [hs] at hr
      simp only [Timely, hs, Bool.and_eq_true] at ht
      have hev : TimelyEv s used e := by
        cases e with
        | toTarget i junk =>
          intro d hd
          simpa [hd] using ht.1
        | toHub i =>
          intro d hd
          simpa [hd] using ht.1
        | _ => trivial
      have h1 := I13.step hst h hev hs
      have := ih (usedAfter used e) _ s1 s' h1 (by cases e <;> exact ht.2) hr
      have hca : casts (e :: es) = casts [e] ++ casts es := by cases e <;> simp [casts]
      rw [hca, ← List.append_assoc]
      exact this

theorem prefix_get {α : Type} {l l' : List α} {k : Nat} {x : α} (h : l <+: l') (hk : l[k]? = some x) : l'[k]? = some x := by
  obtain ⟨t, rfl⟩ := h
  exact get_append hk

/-- **C56.** Through a network that delivers no request twice and nothing late, the target executes after some status requests `S` only
requests that were cast to the device client, each at most once, unchanged and in order (`E`); the replies that are forwarded are those of
the target to some of them (`A`), each to the client of the request. -/
theorem C56_partial {absMax : Nat} {t0 : Tgt13 σ} (hst : ∀ st, (exec st statusReq13).2.take 4 = [0xfc, 0, 0, 0x10]) {es : List WEv}
    {s : World (Tgt13 σ)} (ht : Timely (Tgt13.recv exec) absMax (World.init t0) [] es = true)
    (hr : (World.init t0).run (Tgt13.recv exec) absMax es = some s) :
    ∃ (S : List (Bytes × Bytes)) (E A : List Done),
      (∀ x ∈ S, x.1 = statusReq13) ∧
      E.Pairwise (fun x y => x.k < y.k) ∧ (∀ x ∈ E, (casts13 es)[x.k]? = some (x.pkt, x.pid)) ∧
      s.tgt.log = t0.log ++ (S ++ E.map fun x => (x.pkt, x.reply)) ∧
      s.tgt.st = final exec t0.st ((S ++ E.map fun x => (x.pkt, x.reply)).map (·.1)) ∧
      (S ++ E.map fun x => (x.pkt, x.reply)).map (·.2) = replies exec t0.st ((S ++ E.map fun x => (x.pkt, x.reply)).map (·.1)) ∧
      A.Sublist E ∧
      s.dc.msgs.filter (fun m => decide (m.code = 0)) = A.map fun x => ⟨x.pid, 0, x.reply⟩ := by
  obtain ⟨used, ⟨taken, hc, hpre, _⟩, S, E, A, hD⟩ := I13.run hst es [] [] _ s (I13.init t0) ht hr
  refine ⟨S, E, A, hD.status, hD.exOrd, ?_, hD.log, hD.st, hD.reps, hD.ansEx, ?_⟩
  · have hsent : s.sent.map (fun f => (f.body, f.pid)) <+: casts13 es := by
      have h1 : s.sent.map (fun f => (f.body, f.pid)) <+: taken.filter fun r => is13 r.1 := by
        rcases hc.phase with ⟨_, _, h⟩ | ⟨_, _, _, _, _, _, h⟩ | ⟨_, _, h⟩ | ⟨_, h⟩
        · rw [h]; simp
        · rw [h]; simp
        · rw [h]; exact List.prefix_refl _
        · exact h
      rw [List.nil_append] at hpre
      exact h1.trans (((List.prefix_append _ _).trans hpre).filter _)
    intro x hx
    obtain ⟨f, h1, h2, h3⟩ := hD.exLt x hx
    refine prefix_get hsent ?_
    rw [List.getElem?_map, h1, ← h2, ← h3]
    rfl
  · have := hD.ans
    simp only [goods] at this
    simp only [DC.msgs, hc.h, List.nil_append]
    exact this

end

/-! ## A case with all of it -/

/-- A target that counts the packets it executes; it answers a status request as expected, others with a header and the count. -/
def count13 (n : Nat) (p : Bytes) : Nat × Bytes :=
  if p = statusReq13 then (n, (List.replicate 10 [0xfc, 0, 0, 0x10]).flatten) else (n + 1, [0xfc, 0, 0, 0x10, n])

def req13 (x : Nat) : Bytes := [0xf8, 0, 0, 0x10, x]

/-- Three clients; the request of the third is lost in the network, and it is told so. -/
def run13 : List WEv :=
  let j := List.replicate 48 0
  [.cast (req13 7) 1, .cast (req13 8) 2, .take, .toTarget 0 j, .toHub 0, .toTarget 1 j, .timeout, .toHub 1, .take, .toTarget 2 j, .toHub 2,
    .cast (req13 9) 3, .take, .timeout, .timeout, .timeout, .timeout]

example (st : Nat) : (count13 st statusReq13).2.take 4 = [0xfc, 0, 0, 0x10] := by rw [count13, if_pos rfl]; rfl

example : Timely (Tgt13.recv count13) 16 (World.init ⟨40, []⟩) [] run13 = true ∧
    ((World.init ⟨40, []⟩).run (Tgt13.recv count13) 16 run13).map (fun s => (s.dc.msgs, s.tgt.st, s.tgt.log.length)) =
      some ([⟨1, 0, [0xfc, 0, 0, 0x10, 40]⟩, ⟨2, 0, [0xfc, 0, 0, 0x10, 41]⟩, ⟨3, 1, []⟩], 42, 3) := by decide +kernel

/-- **C56 fails when a reply arrives twice.** The second client gets the reply to the request of the first. (Every `exec` here answers with the
number of packets executed; the second request is not executed at all.) -/
theorem C56_violated_duplicate : ∃ (es : List WEv) (s : World (Tgt13 Nat)),
    (World.init ⟨40, []⟩).run (Tgt13.recv count13) 16 es = some s ∧ casts13 es = [(req13 7, 1), (req13 8, 2)] ∧
    s.tgt.log.map (·.1) = [statusReq13, req13 7] ∧ s.dc.msgs = [⟨1, 0, [0xfc, 0, 0, 0x10, 40]⟩, ⟨2, 0, [0xfc, 0, 0, 0x10, 40]⟩] :=
  let j := List.replicate 48 0
  ⟨[.cast (req13 7) 1, .cast (req13 8) 2, .take, .toTarget 0 j, .toHub 0, .toTarget 1 j, .toHub 1, .take, .toHub 1], _, rfl, by decide, by decide,
    by decide⟩

/-- **C56 fails when a request arrives twice.** It is executed twice, which for a request that increments something matters. -/
theorem C56_violated_twice : ∃ (es : List WEv) (s : World (Tgt13 Nat)),
    (World.init ⟨40, []⟩).run (Tgt13.recv count13) 16 es = some s ∧ casts13 es = [(req13 7, 1)] ∧
    s.tgt.log.map (·.1) = [statusReq13, req13 7, req13 7] :=
  let j := List.replicate 48 0
  ⟨[.cast (req13 7) 1, .take, .toTarget 0 j, .toHub 0, .toTarget 1 j, .toTarget 1 j], _, rfl, by decide, by decide⟩

end Verif.Hub
