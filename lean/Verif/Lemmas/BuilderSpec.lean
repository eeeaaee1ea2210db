import Verif.Lemmas.BuilderSound
/-!
# About the declared tree
-/

set_option autoImplicit false
set_option linter.unusedSimpArgs false

namespace Verif
open Spec

mutual
theorem Declares.mono {J J' : W → W → W → Prop} {I I' : Str → Str → Decl → Prop} {cur cur' : Str} (hJ : ∀ r o p, J r o p → J' r o p)
    (hI : ∀ e t, I e cur t → I' e cur' t) (top : Bool) : ∀ (x : Xml) (t : Decl), Declares J I top cur x t → Declares J' I' top cur' x t
  | .el attrs kids, .mk uid part mask perm mode size info ks => by
    intro h
    rw [Declares] at h ⊢
    obtain ⟨hk, h | h | h⟩ := h
    · obtain ⟨h1, h2, p1, p2, p3, p4, p5, p6, p7, h3, h4⟩ := h
      exact ⟨hk, .inl ⟨h1, h2, p1, p2, p3, p4, p5, p6, p7, h3, DeclaresL.mono hJ hI kids ks h4⟩⟩
    · exact ⟨hk, .inr (.inl h)⟩
    · obtain ⟨h1, h2, h3, h4, h5, m, ru, rp, off, ri, hm, hr, p1, p2, hj, hi⟩ := h
      exact ⟨hk, .inr (.inr ⟨h1, h2, h3, h4, h5, m, ru, rp, off, ri, hm, hI _ _ hr, p1, p2, hJ _ _ _ hj, hi⟩)⟩
theorem DeclaresL.mono {J J' : W → W → W → Prop} {I I' : Str → Str → Decl → Prop} {cur cur' : Str} (hJ : ∀ r o p, J r o p → J' r o p)
    (hI : ∀ e t, I e cur t → I' e cur' t) : ∀ (l : List Xml) (ts : List Decl), DeclaresL J I cur l ts → DeclaresL J' I' cur' l ts
  | [], [] => by intro _; rw [DeclaresL]; trivial
  | x :: xs, t :: ts => by
    intro h
    rw [DeclaresL] at h ⊢
    exact ⟨Declares.mono hJ hI false x t h.1, DeclaresL.mono hJ hI xs ts h.2⟩
  | [], t :: ts => by intro h; simp [DeclaresL] at h
  | x :: xs, [] => by intro h; simp [DeclaresL] at h
end

theorem FileDeclares.mono {env : BuildEnv} {J J' : W → W → W → Prop} (hJ : ∀ r o p, J r o p → J' r o p) {D D' : Nat} (hD : D ≤ D') :
    ∀ e cur t, FileDeclares env J D e cur t → FileDeclares env J' D' e cur t := by
  induction D generalizing D' with
  | zero => intro e cur t h; rw [FileDeclares] at h; exact h.elim
  | succ D ih =>
    intro e cur t h
    obtain ⟨D'', rfl⟩ : ∃ k, D' = k + 1 := ⟨D' - 1, by omega⟩
    rw [FileDeclares] at h ⊢
    obtain ⟨fs, proto, path, x, ho, hu, hx, ht, hb⟩ := h
    exact ⟨fs, proto, path, x, ho, hu, hx, Declares.mono hJ (fun e t h => ih (by omega) e path t h) true x t ht, hb⟩

theorem FileDeclares.up {env : BuildEnv} {J : W → W → W → Prop} {D D' : Nat} (hD : D ≤ D') {e cur : Str} {t : Decl}
    (h : FileDeclares env J D e cur t) : FileDeclares env J D' e cur t := FileDeclares.mono (fun _ _ _ h => h) hD e cur t h

mutual
theorem Declares.bound {env : BuildEnv} {J : W → W → W → Prop} {cur : Str} (top : Bool) : ∀ (x : Xml) (t : Decl),
    Declares J (Declared env J) top cur x t → ∃ D, Declares J (FileDeclares env J D) top cur x t
  | .el attrs kids, .mk uid part mask perm mode size info ks => by
    intro h
    rw [Declares] at h
    obtain ⟨hk, h | h | h⟩ := h
    · obtain ⟨h1, h2, p1, p2, p3, p4, p5, p6, p7, h3, h4⟩ := h
      obtain ⟨D, hD⟩ := DeclaresL.bound kids ks h4
      exact ⟨D, by rw [Declares]; exact ⟨hk, .inl ⟨h1, h2, p1, p2, p3, p4, p5, p6, p7, h3, hD⟩⟩⟩
    · exact ⟨0, by rw [Declares]; exact ⟨hk, .inr (.inl h)⟩⟩
    · obtain ⟨h1, h2, h3, h4, h5, m, ru, rp, off, ri, hm, ⟨D, hr⟩, p1, p2, hj, hi⟩ := h
      exact ⟨D, by rw [Declares]; exact ⟨hk, .inr (.inr ⟨h1, h2, h3, h4, h5, m, ru, rp, off, ri, hm, hr, p1, p2, hj, hi⟩)⟩⟩
theorem DeclaresL.bound {env : BuildEnv} {J : W → W → W → Prop} {cur : Str} : ∀ (l : List Xml) (ts : List Decl),
    DeclaresL J (Declared env J) cur l ts → ∃ D, DeclaresL J (FileDeclares env J D) cur l ts
  | [], [] => by intro _; exact ⟨0, by rw [DeclaresL]; trivial⟩
  | x :: xs, t :: ts => by
    intro h
    rw [DeclaresL] at h
    obtain ⟨D1, h1⟩ := Declares.bound false x t h.1
    obtain ⟨D2, h2⟩ := DeclaresL.bound xs ts h.2
    refine ⟨max D1 D2, ?_⟩
    rw [DeclaresL]
    exact ⟨Declares.mono (fun _ _ _ h => h) (fun e t h => FileDeclares.up (Nat.le_max_left D1 D2) h) false x t h1,
      DeclaresL.mono (fun _ _ _ h => h) (fun e t h => FileDeclares.up (Nat.le_max_right D1 D2) h) xs ts h2⟩
  | [], t :: ts => by intro h; simp [DeclaresL] at h
  | x :: xs, [] => by intro h; simp [DeclaresL] at h
end

/-- A file expression declares what the one usable file declares. -/
theorem Declared.iff (env : BuildEnv) (J : W → W → W → Prop) (e cur : Str) (t : Decl) :
    Declared env J e cur t ↔ ∃ fs proto path x, env.open_ e cur = some fs ∧
      fs.filter (fun f => (env.file f.1 f.2).isSome) = [(proto, path)] ∧ env.file proto path = some x ∧
      Declares J (Declared env J) true path x t ∧ t.BlocksOK := by
  constructor
  · rintro ⟨D, h⟩
    cases D with
    | zero => rw [FileDeclares] at h; exact h.elim
    | succ D =>
      rw [FileDeclares] at h
      obtain ⟨fs, proto, path, x, ho, hu, hx, ht, hb⟩ := h
      exact ⟨fs, proto, path, x, ho, hu, hx, Declares.mono (fun _ _ _ h => h) (fun e t h => ⟨D, h⟩) true x t ht, hb⟩
  · rintro ⟨fs, proto, path, x, ho, hu, hx, ht, hb⟩
    obtain ⟨D, hD⟩ := Declares.bound true x t ht
    exact ⟨D + 1, by rw [FileDeclares]; exact ⟨fs, proto, path, x, ho, hu, hx, hD, hb⟩⟩

theorem or_eq_add (a b : W) (h : a &&& b = 0#32) : a ||| b = a + b := by
  have := BitVec.add_eq_or_of_and_eq_zero a b h
  exact this.symm

theorem disj_sum (r o p : W) (h : disjJ r o p) : sumJ r o p := h.1
theorem disj_or (r o p : W) (h : disjJ r o p) : orJ r o p := by unfold orJ; rw [or_eq_add r o h.2]; exact h.1

theorem NumIs.unique {attrs : List (Str × Str)} {a : Attr} {dflt v w : W} (h : NumIs (attr? attrs a) dflt v)
    (h' : NumIs (attr? attrs a) dflt w) : v = w := by
  obtain ⟨o, h1, h2, _⟩ := getU32_of h
  obtain ⟨o', h3, h4, _⟩ := getU32_of h'
  rw [h1] at h3
  cases h3
  rw [← h2, h4]

end Verif
