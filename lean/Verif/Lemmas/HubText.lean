import Verif.Model.HubText
/-!
# Reading texts of the ControlHub back
-/

set_option autoImplicit false

namespace Verif.HubText
open Verif.HubApp

theorem dec_isDigit (n : Nat) : ∀ c ∈ dec n, c.isDigit = true := fun _ h => Nat.isDigit_of_mem_toDigits (by decide) (by decide) h

theorem dec_inj {m n : Nat} (h : dec m = dec n) : m = n := by
  have := congrArg (fun l => Nat.ofDigitChars 10 l 0) h
  simpa [dec] using this

theorem digits_cut {c : Char} (hc : c.isDigit = false) : ∀ (s t u v : Text), (∀ x ∈ s, x.isDigit = true) → (∀ x ∈ t, x.isDigit = true) →
    s ++ c :: u = t ++ c :: v → s = t ∧ u = v
  | [], [], _, _, _, _, h => ⟨rfl, (List.cons.inj h).2⟩
  | [], b :: t, _, _, _, ht, h => by
    have := (List.cons.inj h).1
    subst this; have := ht c (List.mem_cons_self ..); rw [hc] at this; cases this
  | a :: s, [], _, _, hs, _, h => by
    have := (List.cons.inj h).1
    subst this; have := hs a (List.mem_cons_self ..); rw [hc] at this; cases this
  | a :: s, b :: t, u, v, hs, ht, h => by
    have h1 := (List.cons.inj h).1
    have ⟨h2, h3⟩ := digits_cut hc s t u v (fun x hx => hs x (List.mem_cons_of_mem _ hx)) (fun x hx => ht x (List.mem_cons_of_mem _ hx)) (List.cons.inj h).2
    exact ⟨by rw [h1, h2], h3⟩

/-- A number in front of something that does not begin with a digit. -/
theorem dec_cut {c : Char} (hc : c.isDigit = false) {m n : Nat} {u v : Text} (h : dec m ++ c :: u = dec n ++ c :: v) : m = n ∧ u = v := by
  have ⟨h1, h2⟩ := digits_cut hc _ _ _ _ (dec_isDigit m) (dec_isDigit n) h
  exact ⟨dec_inj h1, h2⟩

theorem dec_head (n : Nat) : ∃ c t, dec n = c :: t ∧ c.isDigit = true := by
  cases h : dec n with
  | nil => exact absurd h Nat.toDigits_ne_nil
  | cons c t => exact ⟨c, t, rfl, dec_isDigit n c (by rw [h]; exact List.mem_cons_self ..)⟩

theorem dec_not_minus (n : Nat) (u v : Text) : dec n ++ u ≠ '-' :: v := by
  have ⟨c, t, h, hd⟩ := dec_head n
  rw [h]; intro e
  have := (List.cons.inj e).1
  subst this; cases hd

/-- A literal that does not begin with a digit. -/
def Lit (l : Text) : Prop := l.head?.map Char.isDigit = some false

instance (l : Text) : Decidable (Lit l) := inferInstanceAs (Decidable (_ = _))

macro "isLit" : tactic => `(tactic| first | decide | (unfold lit; decide +kernel))

theorem Lit.cons {l : Text} (h : Lit l) : ∃ c t, l = c :: t ∧ c.isDigit = false := by
  cases l with
  | nil => cases h
  | cons c t => exact ⟨c, t, rfl, by simpa [Lit] using h⟩

/-- A number in front of a literal. -/
theorem dec_lit {m n : Nat} {l u v : Text} (h : dec m ++ (l ++ u) = dec n ++ (l ++ v)) (hl : Lit l) : m = n ∧ u = v := by
  have ⟨c, t, e, hc⟩ := hl.cons
  subst e
  have ⟨h1, h2⟩ := dec_cut hc h
  exact ⟨h1, List.append_cancel_left h2⟩

theorem decZ_lit {m n : Int} {l u v : Text} (h : decZ m ++ (l ++ u) = decZ n ++ (l ++ v)) (hl : Lit l) : m = n ∧ u = v := by
  unfold decZ at h
  split at h <;> split at h
  · have ⟨h1, h2⟩ := dec_lit (List.cons.inj h).2 hl
    exact ⟨by omega, h2⟩
  · exact absurd h.symm (dec_not_minus _ _ _)
  · exact absurd h (dec_not_minus _ _ _)
  · have ⟨h1, h2⟩ := dec_lit h hl
    exact ⟨by omega, h2⟩

theorem field_length (w : Nat) (c : Char) (s : Text) : (field w c s).length = w := by
  unfold field; split
  · simp; omega
  · simp

theorem dec_length {n w : Nat} (hw : 0 < w) (h : n < 10 ^ w) : (dec n).length ≤ w := (Nat.length_toDigits_le_iff (by decide) hw).2 h

theorem filter_digits (s : Text) (h : ∀ c ∈ s, c.isDigit = true) : s.filter Char.isDigit = s := List.filter_eq_self.2 h

/-- Padding does not hide a number that fits. -/
theorem field_inj {w m n : Nat} {c : Char} (hc : c = '0' ∨ c = ' ') (hw : 0 < w) (hm : m < 10 ^ w) (hn : n < 10 ^ w)
    (h : field w c (dec m) = field w c (dec n)) : m = n := by
  unfold field at h
  rw [if_pos (dec_length hw hm), if_pos (dec_length hw hn)] at h
  cases hc with
  | inl hc =>
    subst hc
    have := congrArg (fun l => Nat.ofDigitChars 10 l 0) h
    simpa [Nat.ofDigitChars_append, dec] using this
  | inr hc =>
    subst hc
    have := congrArg (fun l => l.filter Char.isDigit) h
    simp only [List.filter_append, filter_digits _ (dec_isDigit _)] at this
    have e : ∀ k, (List.replicate k ' ').filter Char.isDigit = [] := by
      intro k; rw [List.filter_eq_nil_iff]; intro a ha; rw [List.eq_of_mem_replicate ha]; decide
    rw [e, e] at this
    exact dec_inj this

theorem field_cut {w m n : Nat} {c : Char} {u v : Text} (h : field w c (dec m) ++ u = field w c (dec n) ++ v)
    (hc : c = '0' ∨ c = ' ') (hw : 0 < w) (hm : m < 10 ^ w) (hn : n < 10 ^ w) : m = n ∧ u = v := by
  have ⟨h1, h2⟩ := List.append_inj h (by rw [field_length, field_length])
  exact ⟨field_inj hc hw hm hn h1, h2⟩

theorem place_eq {p q : Place} (h1 : p.ip1 = q.ip1) (h2 : p.ip2 = q.ip2) (h3 : p.ip3 = q.ip3) (h4 : p.ip4 = q.ip4) (h5 : p.port = q.port) : p = q := by
  cases p; cases q; simp_all

theorem ipPort_lit {p q : Place} {l u v : Text} (h : ipPort p ++ (l ++ u) = ipPort q ++ (l ++ v)) (hl : Lit l) : p = q ∧ u = v := by
  simp only [ipPort, List.append_assoc] at h
  have ⟨h1, h⟩ := dec_lit h (by isLit)
  have ⟨h2, h⟩ := dec_lit h (by isLit)
  have ⟨h3, h⟩ := dec_lit h (by isLit)
  have ⟨h4, h⟩ := dec_lit h (by isLit)
  have ⟨h5, h⟩ := dec_lit h hl
  exact ⟨place_eq h1 h2 h3 h4 h5, h⟩

theorem ipPort_inj {p q : Place} (h : ipPort p = ipPort q) : p = q :=
  (ipPort_lit (l := nl) (u := []) (v := []) (by rw [h]) (by isLit)).1

/-- A date and time of day that exist (up to the number of days of a month), in a year of four digits. -/
structure Moment.Ok (m : Moment) : Prop where
  year : m.year < 10000
  month : m.month ≤ 12
  day : m.day ≤ 31
  hour : m.hour < 24
  min : m.min < 60
  sec : m.sec < 60
  micro : m.micro < 1000000

/-- What the report shows of a moment: milliseconds. -/
def Moment.milli (m : Moment) : Moment := { m with micro := m.micro / 1000 }

theorem since_cut {m n : Moment} {u v : Text} (hm : m.Ok) (hn : n.Ok) (h : since m ++ u = since n ++ v) : m.milli = n.milli ∧ u = v := by
  obtain ⟨m1, m2, m3, m4, m5, m6, m7⟩ := hm
  obtain ⟨n1, n2, n3, n4, n5, n6, n7⟩ := hn
  simp only [since, List.append_assoc] at h
  have ⟨h1, h⟩ := field_cut (List.append_cancel_left h) (.inr rfl) (by decide) (by omega) (by omega)
  have ⟨h2, h⟩ := field_cut (List.append_cancel_left h) (.inl rfl) (by decide) (by omega) (by omega)
  have ⟨h3, h⟩ := field_cut (List.append_cancel_left h) (.inl rfl) (by decide) (by omega) (by omega)
  have ⟨h4, h⟩ := field_cut (List.append_cancel_left h) (.inl rfl) (by decide) (by omega) (by omega)
  have ⟨h5, h⟩ := field_cut (List.append_cancel_left h) (.inl rfl) (by decide) (by omega) (by omega)
  have ⟨h6, h⟩ := field_cut (List.append_cancel_left h) (.inl rfl) (by decide) (by omega) (by omega)
  have ⟨h7, h⟩ := field_cut (List.append_cancel_left h) (.inr rfl) (by decide) (by omega) (by omega)
  refine ⟨?_, List.append_cancel_left h⟩
  simp only [Moment.milli, h1, h2, h3, h4, h5, h6, h7]

/-- The lines of a table of a transaction manager under its title. -/
theorem client_cut {t t' : Table} {u v s s' : Text} {P : Prop} (hs : ∀ x y, s ++ (nl ++ x) = s' ++ (nl ++ y) → P ∧ x = y)
    (h : clientText s t ++ u = clientText s' t' ++ v) : P ∧ clientKeys.map t = clientKeys.map t' ∧ u = v := by
  simp only [clientText, List.append_assoc] at h
  have ⟨h0, h⟩ := hs _ _ (List.append_cancel_left h)
  have ⟨h1, h⟩ := dec_lit (List.append_cancel_left h) (by isLit)
  have ⟨h2, h⟩ := dec_lit h (by isLit)
  have ⟨h3, h⟩ := dec_lit (List.append_cancel_left (List.append_cancel_left h)) (by isLit)
  exact ⟨h0, by simp only [clientKeys, List.map_cons, List.map_nil, h1, h2, h3], h⟩

/-- The lines of a table of a device client under its title. -/
theorem device_cut {t t' : Table} {u v s s' : Text} {P : Prop} (hs : ∀ x y, s ++ (nl ++ x) = s' ++ (nl ++ y) → P ∧ x = y)
    (h : deviceText s t ++ u = deviceText s' t' ++ v) : P ∧ deviceKeys.map t = deviceKeys.map t' ∧ u = v := by
  unfold deviceText at h
  simp only [List.append_assoc] at h
  obtain ⟨h0, h⟩ := hs _ _ (List.append_cancel_left h)
  obtain ⟨h1, h⟩ := dec_lit (List.append_cancel_left h) (by isLit)
  obtain ⟨h2, h⟩ := dec_lit (List.append_cancel_left h) (by isLit)
  obtain ⟨h3, h⟩ := dec_lit (List.append_cancel_left h) (by isLit)
  obtain ⟨h4, h⟩ := dec_lit h (by isLit)
  obtain ⟨h5, h⟩ := dec_lit (List.append_cancel_left (List.append_cancel_left h)) (by isLit)
  obtain ⟨h6, h⟩ := dec_lit h (by isLit)
  obtain ⟨h7, h⟩ := dec_lit (List.append_cancel_left (List.append_cancel_left h)) (by isLit)
  obtain ⟨h8, h⟩ := dec_lit h (by isLit)
  exact ⟨h0, by simp only [deviceKeys, List.map_cons, List.map_nil, h1, h2, h3, h4, h5, h6, h7, h8], List.append_cancel_left h⟩

/-- Items one after the other, and behind them something that begins otherwise. -/
theorem items_cut {α β : Type} (f : α → Text) (key : α → β) (ok : α → Prop)
    (hf : ∀ a b x y, ok a → ok b → f a ++ x = f b ++ y → key a = key b ∧ x = y) (e e' : Text)
    (he : ∀ a x, f a ++ x ≠ e) (he' : ∀ a x, f a ++ x ≠ e') :
    ∀ l l' : List α, (∀ a ∈ l, ok a) → (∀ a ∈ l', ok a) → l.flatMap f ++ e = l'.flatMap f ++ e' → l.map key = l'.map key ∧ e = e'
  | [], [], _, _, h => ⟨rfl, h⟩
  | [], b :: l', _, _, h => by
    simp only [List.flatMap_nil, List.flatMap_cons, List.append_assoc, List.nil_append] at h
    exact absurd h.symm (he _ _)
  | a :: l, [], _, _, h => by
    simp only [List.flatMap_nil, List.flatMap_cons, List.append_assoc, List.nil_append] at h
    exact absurd h (he' _ _)
  | a :: l, b :: l', hl, hl', h => by
    simp only [List.flatMap_cons, List.append_assoc] at h
    have ⟨h1, h⟩ := hf a b _ _ (hl a (List.mem_cons_self ..)) (hl' b (List.mem_cons_self ..)) h
    have ⟨h2, h⟩ := items_cut f key ok hf e e' he he' l l' (fun x hx => hl x (List.mem_cons_of_mem _ hx))
      (fun x hx => hl' x (List.mem_cons_of_mem _ hx)) h
    exact ⟨by simp only [List.map_cons, h1, h2], h⟩

theorem clientTitle_cut {p q : Place} (x y : Text) (h : clientTitle p ++ (nl ++ x) = clientTitle q ++ (nl ++ y)) : p = q ∧ x = y := by
  simp only [clientTitle, List.append_assoc] at h
  exact ipPort_lit (List.append_cancel_left h) (by isLit)

theorem since_lit (m : Moment) : ∃ r, since m = lit ", since " ++ r := ⟨_, by simp only [since, List.append_assoc]; rfl⟩

theorem deviceTitle_cut {p q : Place × Moment} (hp : p.2.Ok) (hq : q.2.Ok) (x y : Text)
    (h : deviceTitle p ++ (nl ++ x) = deviceTitle q ++ (nl ++ y)) : (p.1, p.2.milli) = (q.1, q.2.milli) ∧ x = y := by
  simp only [deviceTitle, List.append_assoc] at h
  have h := List.append_cancel_left h
  have ⟨r, e⟩ := since_lit p.2
  have ⟨r', e'⟩ := since_lit q.2
  have k : ipPort p.1 ++ (lit ", since " ++ (r ++ (nl ++ x))) = ipPort q.1 ++ (lit ", since " ++ (r' ++ (nl ++ y))) := by
    rw [e, e'] at h; simpa only [List.append_assoc] using h
  have h1 := (ipPort_lit k (by isLit)).1
  rw [h1] at h
  have ⟨h2, h⟩ := since_cut hp hq (List.append_cancel_left h)
  exact ⟨by rw [h1, h2], List.append_cancel_left h⟩

theorem client_other {p : Place} {t t' : Table} {x y : Text} (h : clientText (clientTitle p) t ++ x = clientText (lit "Old clients") t' ++ y) : False := by
  simp only [clientText, clientTitle, List.append_assoc] at h
  have h := List.append_cancel_left h
  have e : lit "@ " = '@' :: [' '] := by unfold lit; decide +kernel
  have e' : lit "Old clients" = 'O' :: lit "ld clients" := by unfold lit; decide +kernel
  rw [e, e'] at h
  exact absurd (List.cons.inj h).1 (by decide)

theorem device_other {p : Place × Moment} {t t' : Table} {x y : Text} (h : deviceText (deviceTitle p) t ++ x = deviceText (lit "Old UDP") t' ++ y) : False := by
  unfold deviceText deviceTitle at h
  simp only [List.append_assoc] at h
  have h := List.append_cancel_left h
  have e : lit "Board @ " = 'B' :: lit "oard @ " := by unfold lit; decide +kernel
  have e' : lit "Old UDP" = 'O' :: lit "ld UDP" := by unfold lit; decide +kernel
  rw [e, e'] at h
  exact absurd (List.cons.inj h).1 (by decide)

/-- What a report text says. -/
theorem report_cut {r r' : Report} {cs cs' : List Place} {ds ds' : List (Place × Moment)} (hd : ∀ d ∈ ds, d.2.Ok) (hd' : ∀ d ∈ ds', d.2.Ok)
    (h : reportText r cs ds = reportText r' cs' ds') :
    r.connections = r'.connections ∧ r.active = r'.active ∧ r.peak = r'.peak ∧
    (cs.zip r.clients).map (fun c => (c.1, clientKeys.map c.2)) = (cs'.zip r'.clients).map (fun c => (c.1, clientKeys.map c.2)) ∧
    clientKeys.map r.oldClients = clientKeys.map r'.oldClients ∧
    (ds.zip r.devices).map (fun d => ((d.1.1, d.1.2.milli), deviceKeys.map d.2)) = (ds'.zip r'.devices).map (fun d => ((d.1.1, d.1.2.milli), deviceKeys.map d.2)) ∧
    deviceKeys.map r.oldDevices = deviceKeys.map r'.oldDevices := by
  simp only [reportText, heading, List.append_assoc] at h
  have ⟨h1, h⟩ := decZ_lit (List.append_cancel_left (List.append_cancel_left (List.append_cancel_left (List.append_cancel_left
    (List.append_cancel_left (List.append_cancel_left h)))))) (by isLit)
  have ⟨h2, h⟩ := decZ_lit (List.append_cancel_left h) (by isLit)
  have ⟨h3, h⟩ := decZ_lit h (by isLit)
  have h := List.append_cancel_left h
  have ⟨h4, h⟩ := items_cut (fun c : Place × Table => clientText (clientTitle c.1) c.2) (fun c => (c.1, clientKeys.map c.2)) (fun _ => True)
    (fun a b x y _ _ e => by
      have ⟨e1, e2, e3⟩ := client_cut (P := a.1 = b.1) (fun _ _ => clientTitle_cut _ _) e
      exact ⟨by rw [e1, e2], e3⟩) _ _
    (fun a x e => client_other e) (fun a x e => client_other e) _ _
    (fun _ _ => trivial) (fun _ _ => trivial) h
  have ⟨_, h5, h⟩ := client_cut (P := True) (fun x y e => ⟨trivial, List.append_cancel_left (List.append_cancel_left e)⟩) h
  have ⟨h6, h⟩ := items_cut (fun d : (Place × Moment) × Table => deviceText (deviceTitle d.1) d.2) (fun d => ((d.1.1, d.1.2.milli), deviceKeys.map d.2))
    (fun d => d.1.2.Ok)
    (fun a b x y ha hb e => by
      have ⟨e1, e2, e3⟩ := device_cut (fun _ _ => deviceTitle_cut ha hb _ _) e
      exact ⟨by rw [e1, e2], e3⟩) _ _
    (fun a x e => device_other (x := x) (y := []) (by rw [List.append_nil]; exact e)) (fun a x e => device_other (x := x) (y := []) (by rw [List.append_nil]; exact e)) _ _
    (fun d hm => hd d.1 (List.of_mem_zip hm).1) (fun d hm => hd' d.1 (List.of_mem_zip hm).1) h
  have h : deviceText (lit "Old UDP") r.oldDevices ++ [] = deviceText (lit "Old UDP") r'.oldDevices ++ [] := by rw [h]
  have h7 := (device_cut (P := True) (fun x y e => ⟨trivial, List.append_cancel_left (List.append_cancel_left e)⟩) h).2.1
  exact ⟨h1, h2, h3, h4, h5, h6, h7⟩

end Verif.HubText
