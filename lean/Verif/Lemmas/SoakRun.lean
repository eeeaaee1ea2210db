import Verif.Lemmas.SoakSteps
/-!
# Runs of the validation test
-/

set_option autoImplicit false
set_option linter.unusedSimpArgs false

namespace Verif.Soak
open Spec

/-! ## The version -/

theorem contains_iff (s t : Str) : contains s t = true ↔ Has s t := by
  induction s with
  | nil =>
    simp only [contains, List.isPrefixOf_iff_prefix]
    constructor
    · rintro ⟨b, hb⟩; exact ⟨[], b, by rw [List.nil_append]; exact hb.symm⟩
    · rintro ⟨a, b, h⟩
      have h := h.symm
      simp only [List.append_eq_nil_iff] at h
      rw [h.1.2]
      exact List.prefix_refl _
  | cons x s ih =>
    simp only [contains, Bool.or_eq_true, List.isPrefixOf_iff_prefix, ih]
    constructor
    · rintro (⟨b, hb⟩ | ⟨a, b, h⟩)
      · exact ⟨[], b, by rw [List.nil_append]; exact hb.symm⟩
      · exact ⟨x :: a, b, by rw [h]; simp⟩
    · rintro ⟨a, b, h⟩
      cases a with
      | nil => left; exact ⟨b, by rw [h]; simp⟩
      | cons y a =>
        simp only [List.cons_append, List.cons.injEq] at h
        right
        exact ⟨a, b, h.2⟩

theorem has_trans {s t u : List Char} (h : Has s t) (h' : Has t u) : Has s u := by
  obtain ⟨a, b, rfl⟩ := h
  obtain ⟨x, y, rfl⟩ := h'
  exact ⟨a ++ x, y ++ b, by simp⟩

theorem looksV2_iff (s : Str) : looksV2 s = true ↔ ∃ p ∈ protocols .v2, Has s p := by
  simp only [looksV2, Bool.or_eq_true, contains_iff, protocols, List.mem_cons, List.not_mem_nil, or_false, exists_eq_or_imp, exists_eq_left]
  simp only [or_assoc]

theorem version_ok {v : Ver} {u : Uri.Uri} (hp : u.protocol ∈ protocols v) (hu : Unambiguous v (Uri.print u)) :
    looksV2 (Uri.print u) = decide (v = .v2) ∧ vsn (Uri.print u) = some v := by
  have h0 : Has (Uri.print u) u.protocol := ⟨[], _, by simp only [Uri.print, List.append_assoc, List.nil_append]; rfl⟩
  have h13 : ∀ p ∈ protocols .v1, Has p "-1.3".toList := by
    intro p hp
    rw [← contains_iff]
    revert p
    decide
  have h20 : ∀ p ∈ protocols .v2, Has p "-2.0".toList := by
    intro p hp
    rw [← contains_iff]
    revert p
    decide
  cases v with
  | v1 =>
    refine ⟨?_, ?_⟩
    · rw [decide_eq_false (by decide), Bool.eq_false_iff, ne_eq, looksV2_iff]
      rintro ⟨p, p1, p2⟩
      exact hu p p1 p2
    · unfold vsn
      rw [if_pos ((contains_iff _ _).2 (has_trans h0 (h13 _ hp)))]
  | v2 =>
    refine ⟨?_, ?_⟩
    · rw [decide_eq_true rfl, looksV2_iff]
      exact ⟨_, hp, h0⟩
    · unfold vsn
      rw [if_neg (fun h => hu ((contains_iff _ _).1 h)), if_pos ((contains_iff _ _).2 (has_trans h0 (h20 _ hp)))]

/-! ## Several clients -/

/-- A client and the device at its other end. -/
structure Site (σ ρ : Type) where
  c : Cfg
  uri : Str
  tg : Target σ
  mem : ρ → σ
  resp : ρ → List W → Option (List W) × ρ
  env : ρ
  sched : List (Nat × Nat)

section
variable {σ ρ : Type}

/-- The client, newly made. -/
def Site.client (s : Site σ ρ) : Client (Link ρ) := ⟨s.c, linkT s.c s.resp, Link.heap, s.uri, St.init (Link.init s.env s.sched)⟩

/-- Buffer sizes as those of the library; the device executes well-formed packets; the validation tests recognise the version. -/
structure Site.OK (s : Site σ ρ) : Prop where
  wf : WF s.c
  cap : CapOK s.c
  roomy : s.c.ver = .v2 → Roomy s.c
  conf : Conforms s.c s.tg s.mem s.resp
  basic : looksV2 s.uri = decide (s.c.ver = .v2)

/-- What the device gives for a sequence of calls, executed one at a time, is what memory gives. -/
def Site.Same (s : Site σ ρ) (os : List Op) : Prop := ∀ m, (seqRun s.c.ver s.tg os (s.mem s.env)).1 = (seqRun s.c.ver ram os m).1

theorem Site.OK.refines {s : Site σ ρ} (h : s.OK) : Refines s.c (linkT s.c s.resp) Link.heap (St.init (Link.init s.env s.sched)) s.tg (s.mem s.env) := by
  intro os hos
  obtain ⟨rs, t, r1, r2, _⟩ := C16_refinement h.wf h.cap h.roomy h.conf os hos s.env s.sched
  exact ⟨rs, t, r1, r2⟩

theorem Site.OK.same {s : Site σ ρ} {base depth : W} {l : List Step} (hl : Fine s.c s.c.ver base depth l) :
    Agree (wants l) (seqRun s.c.ver s.tg (ops l) (s.mem s.env)).1 ↔ s.Same (ops l) := by
  constructor
  · intro hA m
    exact (agree_iff hl.sane.ok (hl.right m)).1 hA
  · intro hs
    exact (agree_iff hl.sane.ok (hl.right fun _ => 0)).2 (hs _)

/-- The steps of the validation tests of each client. -/
def basicPlan (p : Args) : List Str → Rnd → List (List Step) × Rnd
  | [], g => ([], g)
  | u :: us, g =>
    let s := basicSteps p.wrap u p.base p.depth p.each g
    let q := basicPlan p us s.2
    (s.1 :: q.1, q.2)

/-- The steps of the soak test of each client. -/
def soakPlan (p : Args) : List Str → Rnd → List (List Step)
  | [], _ => []
  | u :: us, g =>
    match soakSteps p.wrap p.fsize u p.base p.depth p.iters p.each g with
    | none => [[]]
    | some s => s.1 :: soakPlan p us s.2

/-- The clients behind their validation tests. -/
inductive AllReady : List (Site σ ρ) → List (List Step) → List (Client (Link ρ)) → Prop
  | nil : AllReady [] [] []
  | cons {s : Site σ ρ} {ss : List (Site σ ρ)} {b : List Step} {bs : List (List Step)} {k : Client (Link ρ)} {ks : List (Client (Link ρ))} {st : St (Link ρ)} {hs : List (Option Handle)} :
      k = ⟨s.c, linkT s.c s.resp, Link.heap, s.uri, st⟩ →
      At s.c (linkT s.c s.resp) (St.init (Link.init s.env s.sched)) s.tg (s.mem s.env) (ops b) (wants b) false false hs st [] → AllReady ss bs ks → AllReady (s :: ss) (b :: bs) (k :: ks)

theorem basicAll_eq {p : Args} (hd : p.depth ≠ 0) (hd' : p.depth.toNat < 2 ^ 29) (ss : List (Site σ ρ)) (hss : ∀ s ∈ ss, s.OK) {g : Rnd} (hg : NoOverflow p.wrap g) :
    let B := basicPlan p (ss.map Site.uri) g
    NoOverflow p.wrap B.2 ∧ (∀ x ∈ ss.zip B.1, Fine x.1.c x.1.c.ver p.base p.depth x.2) ∧ B.1.length = ss.length ∧
    (((∀ x ∈ ss.zip B.1, x.1.Same (ops x.2)) ∧ ∃ ks, basicAll p (ss.map Site.client) g = .inr (ks, B.2) ∧ AllReady ss B.1 ks) ∨
      ((∃ x ∈ ss.zip B.1, ¬ x.1.Same (ops x.2)) ∧ basicAll p (ss.map Site.client) g = .inl .exit)) := by
  induction ss generalizing g with
  | nil => exact ⟨hg, by simp [basicPlan], rfl, .inl ⟨by simp [basicPlan], [], rfl, .nil⟩⟩
  | cons s ss ih =>
    have hs := hss s (by simp)
    obtain ⟨f1, f2⟩ := basic_fine (c := s.c) (v := s.c.ver) (base := p.base) hd hd' hs.basic p.each hg
    obtain ⟨i1, i2, i3, i4⟩ := ih (fun t ht => hss t (by simp [ht])) f2
    simp only [List.map_cons, basicPlan, basicAll, List.zip_cons_cons, List.mem_cons, forall_eq_or_imp, exists_eq_or_imp, List.length_cons]
    refine ⟨i1, ⟨f1, i2⟩, by rw [i3], ?_⟩
    have hst := (At.start (c := s.c) (T := linkT s.c s.resp) (s0 := St.init (Link.init s.env s.sched)) (tg := s.tg) (m := s.mem s.env)).steps hs.refines
      (basicSteps p.wrap s.uri p.base p.depth p.each g).1 f1.sane.ok (f1.sane.ord false)
    simp only [List.nil_append] at hst
    rw [Site.OK.same f1] at hst
    rcases hst with ⟨a1, d', hs', st, a2, a3⟩ | ⟨a1, a2⟩
    · rw [show runSteps s.client.c s.client.T s.client.heap (basicSteps p.wrap s.client.uri p.base p.depth p.each g).1 s.client.st [] = _ from a2]
      dsimp only
      rcases i4 with ⟨b1, ks, b2, b3⟩ | ⟨b1, b2⟩
      · refine .inl ⟨⟨a1, b1⟩, ?_⟩
        rw [show basicAll p (ss.map Site.client) (basicSteps p.wrap s.client.uri p.base p.depth p.each g).2 = _ from b2]
        exact ⟨_, rfl, .cons rfl a3.idle b3⟩
      · refine .inr ⟨.inr b1, ?_⟩
        rw [show basicAll p (ss.map Site.client) (basicSteps p.wrap s.client.uri p.base p.depth p.each g).2 = _ from b2]
    · rw [show runSteps s.client.c s.client.T s.client.heap (basicSteps p.wrap s.client.uri p.base p.depth p.each g).1 s.client.st [] = _ from a2]
      exact .inr ⟨.inl a1, rfl⟩

theorem soakAll_eq {p : Args} (hd : p.depth ≠ 0) (hd' : p.depth.toNat < 2 ^ 29) (ss : List (Site σ ρ)) (hss : ∀ s ∈ ss, s.OK ∧ vsn s.uri = some s.c.ver) {bs : List (List Step)} {ks : List (Client (Link ρ))}
    (hb : ∀ x ∈ ss.zip bs, Fine x.1.c x.1.c.ver p.base p.depth x.2) (hr : AllReady ss bs ks) {g : Rnd} (hg : NoOverflow p.wrap g) :
    let S := soakPlan p (ss.map Site.uri) g
    (∀ x ∈ ss.zip (bs.zip S), Fine x.1.c x.1.c.ver p.base p.depth (x.2.1 ++ x.2.2)) ∧ S.length = ss.length ∧
    (((∀ x ∈ ss.zip (bs.zip S), x.1.Same (ops x.2.1 ++ ops x.2.2)) ∧ soakAll p ks g = .returns true) ∨
      ((∃ x ∈ ss.zip (bs.zip S), ¬ x.1.Same (ops x.2.1 ++ ops x.2.2)) ∧ soakAll p ks g = .returns false)) := by
  induction hr generalizing g with
  | nil => exact ⟨by simp [soakPlan], rfl, .inl ⟨by simp [soakPlan], rfl⟩⟩
  | @cons s ss b bs k ks st hs' hk hat hr ih =>
    obtain ⟨hs, hv⟩ := hss s (by simp)
    obtain ⟨q, q1, q2, q3⟩ := soak_fine (c := s.c) (v := s.c.ver) (base := p.base) hd hd' hv p.fsize p.iters p.each hg
    have hfb := hb (s, b) (by simp)
    obtain ⟨i1, i2, i3⟩ := ih (fun t ht => hss t (by simp [ht])) (fun x hx => hb x (by simp [hx])) q3
    have hk1 : soakSteps p.wrap p.fsize k.uri p.base p.depth p.iters p.each g = some q := by rw [hk]; exact q1
    simp only [List.map_cons, soakPlan, q1, soakAll, hk1, List.zip_cons_cons, List.mem_cons, forall_eq_or_imp, exists_eq_or_imp, List.length_cons]
    have hfine := hfb.append q2
    refine ⟨⟨hfine, i1⟩, by rw [i2], ?_⟩
    have hst := hat.steps hs.refines q.1 q2.sane.ok (q2.sane.ord false)
    rw [← wants_append, ← ops_append, Site.OK.same hfine] at hst
    rw [← ops_append]
    subst hk
    rcases hst with ⟨a1, d', hs'', st', a2, a3⟩ | ⟨a1, a2⟩
    · dsimp only
      rw [a2]
      rcases i3 with ⟨b1, b2⟩ | ⟨b1, b2⟩
      · exact .inl ⟨⟨a1, b1⟩, b2⟩
      · exact .inr ⟨.inr b1, b2⟩
    · dsimp only
      rw [a2]
      exact .inr ⟨.inl a1, rfl⟩

theorem soak_plan_fine {p : Args} (hd : p.depth ≠ 0) (hd' : p.depth.toNat < 2 ^ 29) (ss : List (Site σ ρ)) (hss : ∀ s ∈ ss, vsn s.uri = some s.c.ver) {bs : List (List Step)}
    (hlen : bs.length = ss.length) (hb : ∀ x ∈ ss.zip bs, Fine x.1.c x.1.c.ver p.base p.depth x.2) {g : Rnd} (hg : NoOverflow p.wrap g) :
    (∀ x ∈ ss.zip (bs.zip (soakPlan p (ss.map Site.uri) g)), Fine x.1.c x.1.c.ver p.base p.depth (x.2.1 ++ x.2.2)) ∧ (soakPlan p (ss.map Site.uri) g).length = ss.length := by
  induction ss generalizing bs g with
  | nil => exact ⟨by simp, rfl⟩
  | cons s ss ih =>
    cases bs with
    | nil => simp at hlen
    | cons b bs =>
      obtain ⟨q, q1, q2, q3⟩ := soak_fine (c := s.c) (v := s.c.ver) (base := p.base) hd hd' (hss s (by simp)) p.fsize p.iters p.each hg
      obtain ⟨i1, i2⟩ := ih (fun t ht => hss t (by simp [ht])) (by simpa using hlen) (fun x hx => hb x (by simp [hx])) q3
      simp only [List.map_cons, soakPlan, q1, List.zip_cons_cons, List.mem_cons, forall_eq_or_imp, List.length_cons]
      exact ⟨⟨(hb (s, b) (by simp)).append q2, i1⟩, by rw [i2]⟩

theorem basicPlan_mem {p : Args} (ss : List (Site σ ρ)) (g : Rnd) : ∀ x ∈ ss.zip (basicPlan p (ss.map Site.uri) g).1, ∃ g', x.2 = (basicSteps p.wrap x.1.uri p.base p.depth p.each g').1 := by
  induction ss generalizing g with
  | nil => simp
  | cons s ss ih =>
    simp only [List.map_cons, basicPlan, List.zip_cons_cons, List.mem_cons, forall_eq_or_imp]
    exact ⟨⟨g, rfl⟩, ih _⟩

/-- The first and the last address are written and read back. -/
theorem basic_covers {wrap : Bool} {uri : Str} {base depth a : W} (hd : depth ≠ 0) (ha : a = base ∨ a = base + depth - 1) (each : Bool) (g : Rnd) :
    ∃ pre x post, ops (basicSteps wrap uri base depth each g).1 = pre ++ ([Op.write a x, .dispatch, .read a] ++ post) := by
  have single : ∀ a g, ∃ x, ops (singleWriteRead a true g).1 = [Op.write a x, .dispatch, .read a] ++ [.dispatch] := fun a g => ⟨_, rfl⟩
  have two : ∀ (b c : W) (r : List W) (g : Rnd) (post : List Step), (a = b ∨ a = c) →
      ∃ pre x post', ops ((twice singleWriteRead each (b :: c :: r) g).1 ++ post) = pre ++ ([Op.write a x, .dispatch, .read a] ++ post') := by
    intro b c r g post h
    simp only [twice, ops_append, List.append_assoc]
    rcases h with rfl | rfl
    · obtain ⟨x, hx⟩ := single a g
      rw [hx, List.append_assoc]
      exact ⟨[], x, _, rfl⟩
    · obtain ⟨x, hx⟩ := single a (singleWriteRead b each (singleWriteRead b true g).2).2
      rw [hx, List.append_assoc, ← List.append_assoc (ops (singleWriteRead b true g).1)]
      exact ⟨_, x, _, rfl⟩
  unfold basicSteps
  rw [if_neg hd]
  generalize randomAddrs base depth 2498 g = r
  dsimp only
  rw [List.append_assoc, List.append_assoc]
  exact two _ _ _ _ _ ha

theorem runSteps_append {τ : Type} {c : Cfg} {T : Transport τ} {heap : τ → Heap} {a b : List Step} {s s' : St τ} {q q' : List (Option Handle × List W)}
    (h : runSteps c T heap a s q = .done s' q') : runSteps c T heap (a ++ b) s q = runSteps c T heap b s' q' := by
  induction a generalizing s q with
  | nil => simp only [runSteps, Out.done.injEq] at h; rw [h.1, h.2]; rfl
  | cons x a ih =>
    cases x with
    | undef => cases h
    | call op w =>
      simp only [List.cons_append, runSteps] at h ⊢
      cases hr : op.run c T s with
      | ok hd t => rw [hr] at h; exact ih h
      | exc e t => rw [hr] at h; cases h
      | ub => rw [hr] at h; cases h
      | loops => rw [hr] at h; cases h
    | check =>
      simp only [List.cons_append, runSteps] at h ⊢
      cases hr : checkAll c.wrapNeg (heap s.tr) q with
      | same => rw [hr] at h; exact ih h
      | differs => rw [hr] at h; cases h
      | threw => rw [hr] at h; cases h
      | ub => rw [hr] at h; cases h

theorem Site.same_of_ram {s : Site σ ρ} {base depth : W} {get : σ → W → W} (h : ActsAsRam s.tg (InRegion base depth) get) {l : List Step} (hl : Fine s.c s.c.ver base depth l) : s.Same (ops l) := by
  rw [← Site.OK.same hl]
  refine (agree_iff hl.sane.ok (hl.right (get (s.mem s.env)))).2 ?_
  exact sim_ops h (ops l) hl.sane.touch _ _ fun _ _ => rfl

theorem dummy_ram (cfg : W → W) (base depth : W) (hd : depth.toNat ≤ 2 ^ 24) : ActsAsRam (dummyTarget cfg) (InRegion base depth) fun m a => m (a &&& 0x00FFFFFF) := by
  refine ⟨fun s a _ => ⟨rfl, fun _ _ => rfl⟩, ?_⟩
  intro s a d b ha hb
  have ha' : (a - base).toNat < depth.toNat := ha
  have hb' : (b - base).toNat < depth.toNat := hb
  simp only [dummyTarget]
  have e : (b &&& 0x00FFFFFF = a &&& 0x00FFFFFF) ↔ b = a := by
    refine ⟨fun he => ?_, fun he => by rw [he]⟩
    have mask : ∀ x : W, (x &&& 0x00FFFFFF).toNat = x.toNat % 2 ^ 24 := by
      intro x
      rw [BitVec.toNat_and]
      exact Nat.and_two_pow_sub_one_eq_mod x.toNat 24
    have h1 := congrArg BitVec.toNat he
    rw [mask, mask] at h1
    apply BitVec.eq_of_toNat_eq
    have := a.isLt
    have := b.isLt
    have := base.isLt
    simp only [BitVec.toNat_sub] at ha' hb'
    omega
  by_cases hab : b = a
  · rw [if_pos (e.2 hab), if_pos hab]
  · rw [if_neg (fun h => hab (e.1 h)), if_neg hab]

end

end Verif.Soak
