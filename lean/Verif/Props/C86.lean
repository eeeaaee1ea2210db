import Verif.Spec.Classes
/-!
# C86: Handlers catch the errors they are for
-/

set_option autoImplicit false

namespace Verif

open Cls Spec

theorem chain_mem {ds : List Decl} {c t : Any} (h : t ∈ chain ds c) : ∃ d ∈ ds, d.name = t := by
  induction ds generalizing c with
  | nil => simp [chain] at h
  | cons d ds ih =>
    rw [chain] at h
    split at h
    · next e =>
      split at h
      · simp only [List.mem_singleton] at h; exact ⟨d, List.mem_cons_self, e.trans h.symm⟩
      · rcases List.mem_cons.1 h with h | h
        · exact ⟨d, List.mem_cons_self, e.trans h.symm⟩
        · obtain ⟨x, hx, e'⟩ := ih h; exact ⟨x, List.mem_cons_of_mem _ hx, e'⟩
    · obtain ⟨x, hx, e'⟩ := ih h; exact ⟨x, List.mem_cons_of_mem _ hx, e'⟩

theorem chain_skip {d : Decl} {ds : List Decl} (h : Compiles (d :: ds)) {c : Any} (hc : ∃ x ∈ ds, x.name = c) : chain (d :: ds) c = chain ds c := by
  obtain ⟨x, hx, e⟩ := hc
  rw [chain, if_neg]
  intro e'
  exact h.1 x hx (e.trans e'.symm)

theorem chain_step {ds : List Decl} (h : Compiles ds) {d : Decl} (hd : d ∈ ds) :
    chain ds d.name = match d.base with | none => [d.name] | some b => d.name :: chain ds b := by
  induction ds with
  | nil => cases hd
  | cons e ds ih =>
    rcases List.mem_cons.1 hd with rfl | hd
    · rw [chain, if_pos rfl]
      cases hb : d.base with
      | none => rfl
      | some b => simp only [chain_skip h (h.2.1 b hb)]
    · rw [chain_skip h ⟨d, hd, rfl⟩, ih h.2.2 hd]
      cases hb : d.base with
      | none => rfl
      | some b =>
        have : ∃ x ∈ ds, x.name = b := by
          clear ih
          have h' := h.2.2
          clear h
          induction ds with
          | nil => cases hd
          | cons f fs ih =>
            rcases List.mem_cons.1 hd with rfl | hd
            · obtain ⟨x, hx, e⟩ := h'.2.1 b hb; exact ⟨x, List.mem_cons_of_mem _ hx, e⟩
            · obtain ⟨x, hx, e⟩ := ih (List.mem_cons_of_mem _ hd) hd h'.2.2; exact ⟨x, List.mem_cons_of_mem _ hx, e⟩
        simp only [chain_skip h this]

theorem Derives.mono {ds ds' : List Decl} {c t : Any} (h : ∀ d ∈ ds, d ∈ ds') (hd : Derives ds c t) : Derives ds' c t := by
  induction hd with
  | self d hd => exact .self d (h d hd)
  | base d b t hd hb _ ih => exact .base d b t (h d hd) hb ih

theorem chain_iff {ds : List Decl} (h : Compiles ds) (c t : Any) : t ∈ chain ds c ↔ Derives ds c t := by
  constructor
  · intro ht
    induction ds generalizing c with
    | nil => simp [chain] at ht
    | cons d ds ih =>
      rw [chain] at ht
      split at ht
      · next e =>
        subst e
        split at ht
        · simp only [List.mem_singleton] at ht; subst ht; exact .self d List.mem_cons_self
        · next b hb =>
          rcases List.mem_cons.1 ht with ht | ht
          · subst ht; exact .self d List.mem_cons_self
          · exact .base d b t List.mem_cons_self hb (Derives.mono (fun _ hx => List.mem_cons_of_mem _ hx) (ih h.2.2 b ht))
      · exact Derives.mono (fun _ hx => List.mem_cons_of_mem _ hx) (ih h.2.2 c ht)
  · intro hd
    induction hd with
    | self d hd => rw [chain_step h hd]; cases d.base <;> simp
    | base d b t hd hb _ ih => rw [chain_step h hd, hb]; exact List.mem_cons_of_mem _ ih

/-- `catch ( T& )` applies to exactly the classes derived from `T`. -/
theorem C86_catch {ds : List Decl} (h : Compiles ds) (t c : Any) : catches ds t c = true ↔ Derives ds c t := by
  rw [catches, List.contains_iff_mem, chain_iff h]

theorem chain_suffix {ds : List Decl} (h : Compiles ds) {c p : Any} (hp : p ∈ chain ds c) : ∃ pre, chain ds c = pre ++ chain ds p := by
  induction ds generalizing c with
  | nil => simp [chain] at hp
  | cons d ds ih =>
    by_cases e : d.name = c
    · subst e
      by_cases e' : p = d.name
      · subst e'; exact ⟨[], rfl⟩
      · rw [chain, if_pos rfl] at hp ⊢
        cases hb : d.base with
        | none => simp [hb] at hp; exact absurd hp e'
        | some b =>
          simp only [hb] at hp ⊢
          rcases List.mem_cons.1 hp with hp | hp
          · exact absurd hp e'
          · obtain ⟨pre, hpre⟩ := ih h.2.2 hp
            exact ⟨d.name :: pre, by rw [chain_skip h (chain_mem hp), hpre, List.cons_append]⟩
    · rw [chain, if_neg e] at hp ⊢
      obtain ⟨pre, hpre⟩ := ih h.2.2 hp
      exact ⟨pre, by rw [chain_skip h (chain_mem hp), hpre]⟩

theorem chain_head {ds : List Decl} {c : Any} (hc : ∃ x ∈ ds, x.name = c) : ∃ l, chain ds c = c :: l := by
  induction ds with
  | nil => obtain ⟨_, h, _⟩ := hc; cases h
  | cons d ds ih =>
    rw [chain]
    split
    · next e => split <;> exact ⟨_, rfl⟩
    · next e =>
      obtain ⟨x, hx, e'⟩ := hc
      rcases List.mem_cons.1 hx with rfl | hx
      · exact absurd e' e
      · exact ih ⟨x, hx, e'⟩

/-- Of two bases of a class one is derived from the other. -/
theorem derives_total {ds : List Decl} (h : Compiles ds) {c p q : Any} (hp : Derives ds c p) (hq : Derives ds c q) : Derives ds p q ∨ Derives ds q p := by
  rw [← chain_iff h] at hp hq
  obtain ⟨a, ha⟩ := chain_suffix h hp
  obtain ⟨b, hb⟩ := chain_suffix h hq
  obtain ⟨l, hl⟩ := chain_head (chain_mem hp)
  obtain ⟨m, hm⟩ := chain_head (chain_mem hq)
  have he : a ++ chain ds p = b ++ chain ds q := ha.symm.trans hb
  rcases List.append_eq_append_iff.1 he with ⟨k, rfl, hk⟩ | ⟨k, rfl, hk⟩
  · left; rw [← chain_iff h, hk, hm]; simp
  · right; rw [← chain_iff h, hk, hl]; simp

theorem derives_trans {ds : List Decl} (h : Compiles ds) {c p q : Any} (hp : Derives ds c p) (hq : Derives ds p q) : Derives ds c q := by
  rw [← chain_iff h] at hp hq ⊢
  obtain ⟨a, ha⟩ := chain_suffix h hp
  rw [ha]; exact List.mem_append_right _ hq

/-- No class is registered before one of its bases. -/
def Spec.BasesFirst (ds : List Decl) (rs : List Reg) : Prop := rs.Pairwise fun a b => ¬ Derives ds a.name b.name

theorem translators_eq (rs : List Reg) : translators rs = rs.reverse := by
  have : ∀ l, rs.foldl (fun l r => r :: l) l = rs.reverse ++ l := by
    induction rs with
    | nil => intro l; rfl
    | cons r rs ih => intro l; rw [List.foldl_cons, ih]; simp
  rw [translators, this, List.append_nil]

/-- An exception arrives in Python as the nearest class that is registered. -/
theorem C86_nearest {ds : List Decl} (h : Compiles ds) {rs : List Reg} (ho : BasesFirst ds rs) (c p : Any) (ht : translate ds rs c = some p) :
    (∃ r ∈ rs, r.name = p) ∧ Derives ds c p ∧ ∀ r ∈ rs, Derives ds c r.name → Derives ds p r.name := by
  rw [translate, translators_eq] at ht
  obtain ⟨r, hr, rfl⟩ := Option.map_eq_some_iff.1 ht
  obtain ⟨hc, as, bs, he, hn⟩ := List.find?_eq_some_iff_append.1 hr
  have hrm : r ∈ rs := List.mem_reverse.1 (by rw [he]; simp)
  rw [C86_catch h] at hc
  refine ⟨⟨r, hrm, rfl⟩, hc, fun q hq hcq => ?_⟩
  rcases derives_total h hc hcq with hd | hd
  · exact hd
  · have hq' := List.mem_reverse.2 hq
    rw [he] at hq'
    rcases List.mem_append.1 hq' with hq' | hq'
    · have := hn q hq'
      rw [(C86_catch h q.name c).2 hcq] at this
      cases this
    · rcases List.mem_cons.1 hq' with rfl | hq'
      · exact hd
      · have hp : rs.Pairwise fun a b => ¬ Derives ds a.name b.name := ho
        rw [← List.reverse_reverse rs, he, List.pairwise_reverse, List.pairwise_append] at hp
        exact absurd hd ((List.pairwise_cons.1 hp.2.1).1 q hq')

theorem C86_fallback {ds : List Decl} (h : Compiles ds) (rs : List Reg) (c : Any) : translate ds rs c = none ↔ ∀ r ∈ rs, ¬ Derives ds c r.name := by
  rw [translate, translators_eq, Option.map_eq_none_iff, List.find?_eq_none]
  simp only [List.mem_reverse, C86_catch h]

theorem chain_old {ext ds : List Decl} (h : Compiles (ext ++ ds)) {c : Any} (hc : ∃ x ∈ ds, x.name = c) : chain (ext ++ ds) c = chain ds c := by
  induction ext with
  | nil => rfl
  | cons d ext ih =>
    obtain ⟨x, hx, e⟩ := hc
    rw [List.cons_append] at h ⊢
    rw [chain_skip h ⟨x, List.mem_append_right _ hx, e⟩, ih h.2.2]

/-- The registered classes are declared. -/
theorem wrapped_declared : ∀ r ∈ wrapped, ∃ x ∈ decls, x.name = r.name := by decide

theorem wrapped_python : ∀ r ∈ wrapped, ∀ s ∈ wrapped, (s.name ∈ pyChain (translators wrapped) r.name ↔ s.name ∈ chain decls r.name) := by decide

theorem wrapped_order : wrapped.Pairwise fun a b => b.name ∉ chain decls a.name := by decide

/-- In Python, `except` for a registered class applies to the exceptions to which `catch` for it applies in C++: for every class, also of users. -/
theorem C86_python (ext : List Decl) (h : Compiles (ext ++ decls)) (c : Any) (t : Reg) (ht : t ∈ wrapped) : excepts (ext ++ decls) wrapped t.name c = true ↔ Derives (ext ++ decls) c t.name := by
  have ho : BasesFirst (ext ++ decls) wrapped := by
    have := wrapped_order
    rw [List.pairwise_iff_forall_sublist] at this
    rw [BasesFirst, List.pairwise_iff_forall_sublist]
    intro a b hab
    have ha : a ∈ wrapped := hab.subset (by simp)
    rw [← chain_iff h, chain_old h (wrapped_declared a ha)]
    exact this hab
  rw [excepts]
  cases hp : translate (ext ++ decls) wrapped c with
  | none => simpa using (C86_fallback h wrapped c).1 hp t ht
  | some p =>
    obtain ⟨⟨r, hr, rfl⟩, hc, hn⟩ := C86_nearest h ho c p hp
    have hs := wrapped_python r hr t ht
    rw [← chain_old h (wrapped_declared r hr), chain_iff h] at hs
    rw [List.contains_iff_mem, hs]
    exact ⟨fun hd => derives_trans h hc hd, hn t ht⟩

def compilesB : List Decl → Bool
  | [] => true
  | d :: ds => (ds.all fun x => x.name ≠ d.name) && (d.base.all fun b => ds.any fun x => x.name = b) && compilesB ds

theorem compilesB_sound (ds : List Decl) (h : compilesB ds = true) : Compiles ds := by
  induction ds with
  | nil => trivial
  | cons d ds ih =>
    simp only [compilesB, Bool.and_eq_true, List.all_eq_true, decide_eq_true_eq] at h
    refine ⟨h.1.1, fun b hb => ?_, ih h.2⟩
    have := h.1.2
    rw [hb] at this
    simpa [List.any_eq_true] using this

theorem decls_compile : Compiles decls := compilesB_sound _ (by decide +kernel)

/-- Every exception of uHAL is derived from `uhal::exception::exception`, and `except uhal.exception` applies to it. -/
theorem C86_all (u : Uhal) : Derives decls (.uhal u) (.uhal .base) ∧ excepts decls wrapped (.uhal .base) (.uhal u) = true := by
  constructor
  · rw [← C86_catch decls_compile]; cases u <;> decide
  · cases u <;> decide

/-- What `throwAsDerivedType` throws is of the class of the exception if that class overrides it. -/
theorem C86_rethrown {ds : List Decl} {c : Any} (hc : ∃ d ∈ ds, d.name = c ∧ d.throws = true) : rethrown ds c = some c := by
  obtain ⟨d, hd, e, ht⟩ := hc
  obtain ⟨l, hl⟩ := chain_head ⟨d, hd, e⟩
  rw [rethrown, hl, List.find?_cons_of_pos]
  rw [overrides, List.any_eq_true]
  exact ⟨d, hd, by simp [e, ht]⟩

theorem overridden (u : Uhal) (h : u ≠ .base) (h' : u ≠ .responseCodeSet) : ∃ d ∈ decls, d.name = .uhal u ∧ d.throws = true := by
  cases u <;> first | (exact absurd rfl h) | (exact absurd rfl h') | decide

/-- `dispatch` throws the first error, as an exception of the class that was made for it. (The base class is abstract; nothing is of it.) -/
theorem C86_dispatch_partial (net : Net) (x : Cause) (xs : List Cause) (h : x ≠ .returned .responseCodeSet) (hb : x ≠ .returned .base) : thrown decls net (x :: xs) = some (made net x).1 := by
  rw [thrown]
  split
  · next hm =>
    cases x with
    | returned e =>
      have : made net (.returned e) = (.uhal e, true) := by cases net <;> rfl
      rw [this]
      exact C86_rethrown (overridden e (fun he => hb (he ▸ rfl)) (fun he => h (he ▸ rfl)))
    | connect l => cases net <;> cases hm
    | deadline => cases net <;> decide
    | io => cases net <;> decide
    | threw e => cases net <;> exact C86_rethrown (overridden _ (by decide) (by decide))
  · rfl

/-- Whatever goes wrong, handlers other than for `IPbusCoreResponseCodeSet` apply to what is thrown as they would to what was made. -/
theorem C86_handlers_partial (net : Net) (x : Cause) (xs : List Cause) (hb : x ≠ .returned .base) (t : Any) (ht : t ≠ .uhal .responseCodeSet) :
    ∃ c, thrown decls net (x :: xs) = some c ∧ (Derives decls c t ↔ Derives decls (made net x).1 t) := by
  by_cases h : x = .returned .responseCodeSet
  · subst h
    refine ⟨.uhal .transactionLevelError, by cases net <;> rfl, ?_⟩
    have : (made net (.returned .responseCodeSet)).1 = .uhal .responseCodeSet := by cases net <;> rfl
    rw [this, ← chain_iff decls_compile, ← chain_iff decls_compile]
    have : chain decls (.uhal .responseCodeSet) = .uhal .responseCodeSet :: chain decls (.uhal .transactionLevelError) := by decide
    rw [this, List.mem_cons]
    simp [ht]
  · exact ⟨_, C86_dispatch_partial net x xs h hb, Iff.rfl⟩

theorem vfail_cls {cap : Nat} {e x : Exc} (h : vfail cap x = .err e) : e = x := by
  rw [vfail] at h; split at h <;> cases h; rfl

theorem coreV_cls (v : Ver) (rd : Loc → W) (fuel cap : Nat) (send : List W) (slots : List Slot) (e : Exc) (h : coreValidate v rd fuel cap send slots = .err e) : ∃ u, ofExc e = some u := by
  induction fuel generalizing cap send slots with
  | zero => simp [coreValidate] at h
  | succ n ih =>
    cases send with
    | nil => simp [coreValidate] at h
    | cons w t =>
      rw [coreValidate] at h
      repeat' split at h
      all_goals first
        | (cases h; done)
        | (have := vfail_cls h; subst this; exact ⟨_, rfl⟩)
        | exact ih _ _ _ h
        | skip
      dsimp only at h
      repeat' split at h
      all_goals first
        | (cases h; done)
        | exact ih _ _ _ h

theorem ipbus_cls (v : Ver) (rd : Loc → W) (cap : Nat) (send : List W) (slots : List Slot) (e : Exc) (h : ipbusValidate v rd cap send slots = .err e) : ∃ u, ofExc e = some u := by
  cases v with
  | v1 => exact coreV_cls _ _ _ _ _ _ _ h
  | v2 =>
    simp only [ipbusValidate] at h
    repeat' split at h
    all_goals first
      | (cases h; done)
      | (cases h; exact ⟨_, rfl⟩)
      | exact coreV_cls _ _ _ _ _ _ _ h

theorem hub_cls (v : Ver) (ip : W) (port : BitVec 16) (rd : Loc → W) (cap : Nat) (send : List W) (slots : List Slot) (e : Exc)
    (h : hubValidate v ip port rd cap send slots = .err e) : ∃ u, ofExc e = some u := by
  match slots, h with
  | [], h => cases h
  | [_], h => cases h
  | [_, _], h => cases h
  | _ :: a :: p :: rest, h =>
    simp only [hubValidate] at h
    by_cases h1 : a.len = 0 ∨ p.len = 0
    · rw [if_pos h1] at h; cases h
    rw [if_neg h1] at h
    by_cases h2 : rd a.loc ≠ ip
    · rw [if_pos h2] at h; cases h; exact ⟨_, rfl⟩
    rw [if_neg h2] at h
    by_cases h3 : (rd p.loc).setWidth 16 ≠ port
    · rw [if_pos h3] at h; cases h; exact ⟨_, rfl⟩
    rw [if_neg h3] at h
    split at h
    · split at h <;> cases h <;> exact ⟨_, rfl⟩
    · exact ipbus_cls _ _ _ _ _ _ h

/-- What `validate` reports, for any memory and any packet, is thrown by `dispatch` as an exception of its class, unless it is a response code. -/
theorem C86_validate_partial (c : Cfg) (h h' : Heap) (b : Buf) (e : Exc) (hv : clientValidate c h b = (.err e, h')) :
    ∃ u, ofExc e = some u ∧ ∀ (net : Net) (xs : List Cause), (∀ i, e ≠ .responseCode i) → thrown decls net (.returned u :: xs) = some (.uhal u) := by
  have hv' : validateBuf c h.word b = .err e := by
    rw [clientValidate] at hv
    split at hv
    · cases hv
    · exact congrArg Prod.fst hv
  have hu : ∃ u, ofExc e = some u := by
    rw [validateBuf] at hv'
    split at hv'
    · exact ipbus_cls _ _ _ _ _ _ hv'
    · exact hub_cls _ _ _ _ _ _ _ _ hv'
  obtain ⟨u, hu⟩ := hu
  refine ⟨u, hu, fun net xs hr => ?_⟩
  have h1 : u ≠ .responseCodeSet := by
    rintro rfl
    cases e <;> simp [ofExc] at hu
    exact hr _ rfl
  have h2 : u ≠ .base := by
    rintro rfl
    cases e <;> simp [ofExc] at hu
  rw [C86_dispatch_partial net _ xs (by simpa using h1) (by simpa using h2)]
  cases net <;> rfl

/-- `catch ( ClientTimeout& )` applies to what `dispatch` throws if and only if time ran out, other than in connecting. -/
theorem C86_timeout_partial (net : Net) (x : Cause) (xs : List Cause) (hx : Real x) (hc : ∀ l, x ≠ .connect l) :
    ∃ c, thrown decls net (x :: xs) = some c ∧ (catches decls (.uhal .clientTimeout) c = true ↔ TimedOut x) := by
  cases x with
  | connect l => exact absurd rfl (hc l)
  | deadline => cases net <;> exact ⟨_, rfl, by simp only [TimedOut]; decide⟩
  | io => cases net <;> exact ⟨_, rfl, by simp only [TimedOut]; decide⟩
  | threw e => cases net <;> exact ⟨.uhal .validationError, rfl, by simp [TimedOut]; decide⟩
  | returned e =>
    obtain ⟨y, hy⟩ := hx
    cases y <;> simp only [ofExc, Option.some.injEq, reduceCtorEq] at hy <;> subst hy <;> cases net <;> exact ⟨_, rfl, by simp only [TimedOut]; decide⟩

/-- `IPbusCoreResponseCodeSet` does not override `throwAsDerivedType`: the target's errors are thrown as `TransactionLevelError`, and no handler for their class applies. -/
theorem C86_violated_slice : ∃ (c : Cfg) (h : Heap) (b : Buf) (h' : Heap), clientValidate c h b = (.err (.responseCode 4), h') ∧
    ∀ net, thrown decls net [.returned .responseCodeSet] = some (.uhal .transactionLevelError) ∧ catches decls (.uhal .responseCodeSet) (.uhal .transactionLevelError) = false := by
  refine ⟨⟨.v2, none, 1400, 1400, false⟩, ⟨fun l => if l = .pkt 0 then 0x200000F0 else 0x20000104, fun _ => false⟩,
    ⟨[0x200000F0, 0x2000010F, 0x10], [⟨.pkt 0, 1⟩, ⟨.hdr 0 0, 1⟩], []⟩, _, rfl, fun net => ?_⟩
  cases net <;> decide

/-- If time runs out while a TCP client connects, no handler for `ClientTimeout` applies, and none for `TcpTimeout`. -/
theorem C86_violated_connect : ∃ c, thrown decls .tcp [.connect true] = some c ∧ TimedOut (.connect true) ∧ catches decls (.uhal .clientTimeout) c = false ∧ catches decls (.uhal .tcpTimeout) c = false :=
  ⟨_, rfl, .inr (.inr rfl), by decide, by decide⟩

/-- If a UDP client cannot open a socket again, no handler for exceptions of uHAL applies, in C++ or in Python. -/
theorem C86_violated_open (l : Bool) : ∃ c, thrown decls .udp [.connect l] = some c ∧ catches decls (.uhal .base) c = false ∧ excepts decls wrapped (.uhal .base) c = false :=
  ⟨.systemError, rfl, by decide, by decide⟩

/-- In Python the handlers that apply to timeouts of PCIe and mmap clients and of targets behind a ControlHub apply to missing files as well. -/
theorem C86_violated_python : ∀ c ∈ [Any.uhal .pcieTimeout, .uhal .mmapTimeout, .uhal .controlHubTargetTimeout], catches decls (.uhal .clientTimeout) c = true ∧
    catches decls (.uhal .clientTimeout) (.uhal .fileNotFound) = false ∧ ∀ t, excepts decls wrapped t c = true → excepts decls wrapped t (.uhal .fileNotFound) = true := by
  intro c hc
  have : ∀ c ∈ [Any.uhal .pcieTimeout, .uhal .mmapTimeout, .uhal .controlHubTargetTimeout], catches decls (.uhal .clientTimeout) c = true ∧ translate decls wrapped c = translate decls wrapped (.uhal .fileNotFound) := by
    decide
  refine ⟨(this c hc).1, by decide, fun t ht => ?_⟩
  rwa [excepts, (this c hc).2] at ht

/-- Non-vacuity: a class of a user, derived from `TcpTimeout`, arrives as `TcpTimeout`; one derived from `std::runtime_error` as `RuntimeError`. -/
example : let ext : List Decl := [⟨.user 1, some .runtimeError, false⟩, ⟨.user 0, some (.uhal .tcpTimeout), true⟩]
    Compiles (ext ++ decls) ∧ translate (ext ++ decls) wrapped (.user 0) = some (.uhal .tcpTimeout) ∧ translate (ext ++ decls) wrapped (.user 1) = none ∧
      excepts (ext ++ decls) wrapped (.uhal .base) (.user 0) = true ∧ excepts (ext ++ decls) wrapped (.uhal .udpTimeout) (.user 0) = false := by
  exact ⟨compilesB_sound _ (by decide +kernel), by decide, by decide, by decide, by decide⟩

/-- Non-vacuity: registered the other way round, the base class would hide the others. -/
example : ¬ BasesFirst decls wrapped.reverse ∧ translate decls wrapped.reverse (.uhal .tcpTimeout) = some (.uhal .base) := by
  refine ⟨fun h => ?_, by decide⟩
  have h' : wrapped.reverse.Pairwise fun a b => ¬ Derives decls a.name b.name := h
  rw [List.pairwise_reverse] at h'
  exact (List.pairwise_cons.1 h').1 ⟨.uhal .tcpTimeout, some (.uhal .base)⟩ (by decide) ((C86_catch decls_compile _ _).1 (by decide))

/-- Non-vacuity: of several errors the first is thrown. -/
example : thrown decls .udp [.deadline, .io] = some (.uhal .udpTimeout) ∧ thrown decls .udp [.io, .deadline] = some (.uhal .asioUdpError) ∧ Real (.returned .fieldsIncorrect) :=
  ⟨by decide, by decide, .fieldsIncorrect, rfl⟩

end Verif
