import Verif.Adders.Inv

/-! Properties C29 (adding equipment is all or nothing) and C55 (terminal construction). -/

namespace Verif.Adders

open Verif

/-! ### Terminal construction -/

/-- The terminal wanted by the arguments. -/
def Wanted (a : Args) : Place → Prop
  | .node n => a.node = some n ∧ a.bus = "" ∧ a.connectableBus = ""
  | .bus b c => b ≠ "" ∧ a.node = none ∧
      ((c = true ∧ a.bus = b ∧ (a.connectableBus = "" ∨ a.connectableBus = b)) ∨ (c = false ∧ a.bus = "" ∧ a.connectableBus = b))

/-- **C55**: a terminal is built exactly when it is wanted by the arguments, in particular a bus terminal is connected exactly when a bus is given. -/
theorem terminal_spec (a : Args) (p : Place) : build a = .ok p ↔ Wanted a p := by
  obtain ⟨n, b, c⟩ := a
  unfold build connectionBus createBusTerminal
  cases p with
  | node m => cases n <;> by_cases hb : b = "" <;> by_cases hc : c = "" <;> by_cases hbc : b = c <;> simp_all [Wanted]
  | bus x k =>
    cases n with
    | some n => by_cases hb : b = "" <;> by_cases hc : c = "" <;> by_cases hbc : b = c <;> simp_all [Wanted]
    | none =>
      by_cases hb : b = ""
      · subst hb
        by_cases hc : c = ""
        · subst hc
          simp only [Wanted]
          simp
          intro hx
          exact ⟨fun _ => hx, fun _ => hx⟩
        · cases k <;> simp [Wanted, hc]
          · intro h; subst h; exact hc
          · intro hx h; exact absurd h hx
      · by_cases hc : c = ""
        · subst hc
          cases k <;> simp [Wanted, hb]
          intro h; subst h; exact hb
        · by_cases hbc : b = c
          · subst hbc
            cases k <;> simp [Wanted, hb]
            intro h; subst h; exact hb
          · cases k <;> simp [Wanted, hb, hc, hbc]
            intro _ h1 h2; exact hbc (h1.trans h2.symm)

/-- **C55**: every other combination of arguments is refused with an exception. -/
theorem terminal_refused (a : Args) : build a = .thrown ↔ ∀ p, ¬ Wanted a p := by
  constructor
  · intro h p hp
    rw [(terminal_spec a p).2 hp] at h
    cases h
  · intro h
    cases e : build a with
    | ok p => exact absurd ((terminal_spec a p).1 e) (h p)
    | thrown => rfl
    | ub => exact absurd e (build_not_ub a)

/-- At most one terminal is wanted. -/
theorem wanted_unique {a : Args} {p q : Place} (hp : Wanted a p) (hq : Wanted a q) : p = q := by
  have h1 := (terminal_spec a p).2 hp
  rw [(terminal_spec a q).2 hq] at h1
  cases h1
  rfl

example : Wanted ⟨some 4, "", ""⟩ (.node 4) ∧ Wanted ⟨none, "B", ""⟩ (.bus "B" true) ∧ Wanted ⟨none, "", "B"⟩ (.bus "B" false) ∧
    (∀ p, ¬ Wanted ⟨some 4, "B", ""⟩ p) ∧ (∀ p, ¬ Wanted ⟨none, "B", "C"⟩ p) ∧ (∀ p, ¬ Wanted ⟨none, "", ""⟩ p) := by
  refine ⟨by simp [Wanted], by simp [Wanted], by simp [Wanted], (terminal_refused _).1 rfl, (terminal_refused _).1 rfl, (terminal_refused _).1 rfl⟩

/-! ### Injections -/

/-- **C29**, **C55**: a successful addition.  The equipment is found under its new id with the wanted terminal, which is attached; nothing else changes. -/
theorem injection_added {s : Net} (o : Order) {ensure : Bool} {id vl n : String} {a : Args} {p : Place} (hn : newId s ensure id = some n) (hp : Wanted a p) (hf : Fit s vl p) :
    ∃ t, addInjection s o true ensure id vl a = (.ok n, t) ∧ (∀ m, t.equips.get? m = if n = m then some [(vl, p)] else s.equips.get? m) ∧ t.others = s.others ∧
      ∀ vl' k, listed t vl' k = if vl = vl' ∧ p.key = k then listed s vl' k ++ [(n, 0)] else listed s vl' k := by
  have hb := (terminal_spec a p).2 hp
  have hok := (attach_ok_iff { s with equips := s.equips.set n [(vl, p)] } (n, 0) vl p).2 hf
  rcases h : attach { s with equips := s.equips.set n [(vl, p)] } (n, 0) vl p with ⟨r, t⟩
  rw [h] at hok
  simp only at hok
  subst hok
  obtain ⟨he, ho, hl, _⟩ := attach_state h
  refine ⟨t, ?_, ?_, ho, hl⟩
  · unfold addInjection
    obtain ⟨v, hv, _⟩ := hf
    rw [if_neg (by rw [hv]; simp)]
    cases o <;> simp [hb, hn, finishInjection, h]
  · intro m
    rw [he]
    exact AMap.get?_set _ _ _ _

/-- What an addition does when it throws: nothing when a value, the id or (terminal built first) the terminal is refused; otherwise the equipment is left in the
    network, without terminal or with a terminal not attached. -/
theorem injection_refused (s : Net) (o : Order) (valid ensure : Bool) (id vl : String) (a : Args) (hv : s.vls.get? vl ≠ none) :
    (valid = false ∨ newId s ensure id = none ∨ (o = .terminalFirst ∧ ∀ p, ¬ Wanted a p) → addInjection s o valid ensure id vl a = (.thrown, s)) ∧
    (∀ n, valid = true → newId s ensure id = some n → o = .terminalLast → (∀ p, ¬ Wanted a p) →
      addInjection s o valid ensure id vl a = (.thrown, { s with equips := s.equips.set n [] })) ∧
    (∀ n p, valid = true → newId s ensure id = some n → Wanted a p → ¬ Fit s vl p →
      addInjection s o valid ensure id vl a = (.thrown, { s with equips := s.equips.set n [(vl, p)] })) := by
  refine ⟨?_, ?_, ?_⟩
  · unfold addInjection
    rw [if_neg hv]
    rintro (rfl | hn | ⟨rfl, hp⟩)
    · rfl
    · cases valid
      · rfl
      · cases o
        · simp only [Bool.not_true, Bool.false_eq_true, if_false, hn]
          cases e : build a with
          | ok p => rfl
          | thrown => rfl
          | ub => exact absurd e (build_not_ub a)
        · simp [hn]
    · cases valid
      · rfl
      · simp [(terminal_refused a).2 hp]
  · rintro n rfl hn rfl hp
    unfold addInjection
    rw [if_neg hv]
    simp [hn, (terminal_refused a).2 hp]
  · rintro n p rfl hn hp hf
    have hb := (terminal_spec a p).2 hp
    have hat : attach { s with equips := s.equips.set n [(vl, p)] } (n, 0) vl p = (.thrown, { s with equips := s.equips.set n [(vl, p)] }) := by
      rcases attach_cases { s with equips := s.equips.set n [(vl, p)] } (n, 0) vl p with ⟨h, _⟩ | ⟨_, _, _, e⟩ | ⟨v, _, h, hf', _, _⟩
      · exact absurd h hv
      · exact e
      · exact absurd ⟨v, h, hf'⟩ hf
    unfold addInjection
    rw [if_neg hv]
    cases o <;> simp [hb, hn, finishInjection, hat]

/-- **C55**: whether an injection is added depends on the arguments and the kind of the voltage level: the terminal must be wanted and fit. -/
theorem injection_ok_iff (s : Net) (o : Order) (ensure : Bool) (id vl : String) (a : Args) (hv : s.vls.get? vl ≠ none) :
    (addInjection s o true ensure id vl a).1.isOk = true ↔ newId s ensure id ≠ none ∧ ∃ p, Wanted a p ∧ Fit s vl p := by
  obtain ⟨h1, h2, h3⟩ := injection_refused s o true ensure id vl a hv
  cases hn : newId s ensure id with
  | none => rw [h1 (.inr (.inl hn))]; simp [Out.isOk]
  | some n =>
    by_cases hp : ∃ p, Wanted a p
    · obtain ⟨p, hp⟩ := hp
      by_cases hf : Fit s vl p
      · obtain ⟨t, e, _⟩ := injection_added o hn hp hf
        rw [e]
        simp only [Out.isOk, ne_eq, reduceCtorEq, not_false_eq_true, true_and, true_iff]
        exact ⟨p, hp, hf⟩
      · rw [h3 n p rfl hn hp hf]
        simp only [Out.isOk, Bool.false_eq_true, false_iff, not_and, not_exists]
        intro _ q hq
        rw [wanted_unique hq hp]
        exact hf
    · have hp' : ∀ p, ¬ Wanted a p := fun p h => hp ⟨p, h⟩
      cases o with
      | terminalFirst => rw [h1 (.inr (.inr ⟨rfl, hp'⟩))]; simp [Out.isOk, hp']
      | terminalLast => rw [h2 n rfl hn rfl hp']; simp [Out.isOk, hp']

/-- A node terminal fits a node/breaker voltage level with a free node, a bus terminal a bus/breaker one with that bus. -/
theorem fit_iff (s : Net) (vl : String) (p : Place) :
    Fit s vl p ↔ (∃ sub nodes touched n, s.vls.get? vl = some ⟨sub, .nodeBreaker nodes touched⟩ ∧ p = .node n ∧ ∀ x, nodes.get? n ≠ some (some x)) ∨
      (∃ sub buses b c, s.vls.get? vl = some ⟨sub, .busBreaker buses⟩ ∧ p = .bus b c ∧ buses.get? b ≠ none) := by
  constructor
  · rintro ⟨⟨sub, t⟩, hv, hf⟩
    cases t with
    | nodeBreaker nodes touched =>
      cases p with
      | node n => left; exact ⟨sub, nodes, touched, n, hv, rfl, hf⟩
      | bus b c => cases hf
    | busBreaker buses =>
      cases p with
      | node n => cases hf
      | bus b c => right; exact ⟨sub, buses, b, c, hv, rfl, hf⟩
  · rintro (⟨sub, nodes, touched, n, hv, rfl, hf⟩ | ⟨sub, buses, b, c, hv, rfl, hf⟩)
    · exact ⟨_, hv, hf⟩
    · exact ⟨_, hv, hf⟩

theorem set_fresh_ne {s : Net} {n : String} {l : List (String × Place)} (hn : n ∉ used s) : { s with equips := s.equips.set n l } ≠ s := by
  intro e
  have h1 : (s.equips.set n l).get? n = some l := by rw [AMap.get?_set]; simp
  have h2 : (s.equips.set n l) = s.equips := congrArg Net.equips e
  rw [h2, fresh_equips hn] at h1
  cases h1

/-- Exactly when an addition that throws leaves the equipment in the network: the values and the id are accepted, and the terminal is refused after the insertion. -/
theorem injection_leftover_iff (s : Net) (o : Order) (valid ensure : Bool) (id vl : String) (a : Args) (hv : s.vls.get? vl ≠ none) :
    ((addInjection s o valid ensure id vl a).1 = .thrown ∧ (addInjection s o valid ensure id vl a).2 ≠ s) ↔
    (valid = true ∧ newId s ensure id ≠ none ∧ ((o = .terminalLast ∧ ∀ p, ¬ Wanted a p) ∨ ∃ p, Wanted a p ∧ ¬ Fit s vl p)) := by
  obtain ⟨h1, h2, h3⟩ := injection_refused s o valid ensure id vl a hv
  cases valid with
  | false => rw [h1 (.inl rfl)]; simp
  | true =>
    cases hn : newId s ensure id with
    | none => rw [h1 (.inr (.inl hn))]; simp
    | some n =>
      have hfr := newId_fresh hn
      by_cases hp : ∃ p, Wanted a p
      · obtain ⟨p, hp⟩ := hp
        by_cases hf : Fit s vl p
        · obtain ⟨t, e, _⟩ := injection_added o hn hp hf
          rw [e]
          simp only [reduceCtorEq, false_and, ne_eq, not_false_eq_true, true_and, false_iff, not_or, not_and, not_exists, Classical.not_not]
          refine ⟨fun _ h => h p hp, ?_⟩
          intro q hq
          rw [wanted_unique hq hp]
          exact hf
        · rw [h3 n p rfl hn hp hf]
          refine ⟨fun _ => ⟨rfl, by simp, .inr ⟨p, hp, hf⟩⟩, fun _ => ⟨rfl, set_fresh_ne hfr⟩⟩
      · have hp' : ∀ p, ¬ Wanted a p := fun p h => hp ⟨p, h⟩
        cases o with
        | terminalFirst => rw [h1 (.inr (.inr ⟨rfl, hp'⟩))]; simp [hp']
        | terminalLast =>
          rw [h2 n rfl hn rfl hp']
          exact ⟨fun _ => ⟨rfl, by simp, .inl ⟨rfl, hp'⟩⟩, fun _ => ⟨rfl, set_fresh_ne hfr⟩⟩

/-- **C29**, partial: an addition that throws changes nothing when the terminal, if wanted, fits, and for the adders that build the terminal last is wanted.
    Missing: the other cases, where the equipment is left in the network (`injection_leftover_iff`). -/
theorem injection_all_or_nothing_partial (s : Net) (o : Order) (valid ensure : Bool) (id vl : String) (a : Args) (hv : s.vls.get? vl ≠ none)
    (hfit : ∀ p, Wanted a p → Fit s vl p) (hlast : o = .terminalLast → ∃ p, Wanted a p) (h : (addInjection s o valid ensure id vl a).1 = .thrown) :
    (addInjection s o valid ensure id vl a).2 = s := by
  apply Classical.byContradiction
  intro hne
  obtain ⟨_, _, ⟨ho, hp⟩ | ⟨p, hp, hf⟩⟩ := (injection_leftover_iff s o valid ensure id vl a hv).1 ⟨h, hne⟩
  · obtain ⟨p, hp'⟩ := hlast ho
    exact hp p hp'
  · exact hf (hfit p hp)

/-! ### Equipment with several terminals -/

theorem multi_cases (s : Net) (ensure : Bool) (id : String) (sub : Option String) (ends : List (String × Args)) :
    addMulti s true ensure id sub ends = (.thrown, s) ∨
    ∃ l n, resolveAll s sub ends = some l ∧ (∀ e, e ∈ l → dryRunAt s e = true) ∧ newId s ensure id = some n ∧
      addMulti s true ensure id sub ends = ((attachAll { s with equips := s.equips.set n l } n 0 l).1.map (fun _ => n), (attachAll { s with equips := s.equips.set n l } n 0 l).2) := by
  unfold addMulti
  simp only [Bool.not_true, Bool.false_eq_true, if_false]
  cases hl : resolveAll s sub ends with
  | none => left; rfl
  | some l =>
    simp only
    by_cases hd : l.all (dryRunAt s) = true
    · rw [if_pos hd]
      cases hn : newId s ensure id with
      | none => left; rfl
      | some n =>
        right
        refine ⟨l, n, rfl, List.all_eq_true.1 hd, rfl, ?_⟩
        simp only
        rcases attachAll { s with equips := s.equips.set n l } n 0 l with ⟨o, t⟩
        cases o <;> rfl
    · left; rw [if_neg hd]

theorem fits_dryRunAt {s : Net} {l : List (String × Place)} (h : Fits s l) : l.all (dryRunAt s) = true := by
  rw [List.all_eq_true]
  intro e he
  obtain ⟨v, hv, hf⟩ := h.1 e he
  simp [dryRunAt, hv, fits_dryRun hf]

/-- **C29**: a successful addition: the equipment is found under its new id with its terminals, all of them attached, and nothing else loses a terminal. -/
theorem multi_added {s : Net} {ensure : Bool} {id n : String} {sub : Option String} {ends : List (String × Args)} {l : List (String × Place)}
    (hl : resolveAll s sub ends = some l) (hn : newId s ensure id = some n) (hf : Fits s l) :
    ∃ t, addMulti s true ensure id sub ends = (.ok n, t) ∧ (∀ m, t.equips.get? m = if n = m then some l else s.equips.get? m) ∧
      (∀ i vl p, l[i]? = some (vl, p) → (n, i) ∈ listed t vl p.key) ∧ ∀ vl k x, x ∈ listed s vl k → x ∈ listed t vl k := by
  have hok := (attachAll_ok_iff l { s with equips := s.equips.set n l } n 0).2 hf
  refine ⟨(attachAll { s with equips := s.equips.set n l } n 0 l).2, ?_, ?_, ?_, ?_⟩
  · unfold addMulti
    simp only [Bool.not_true, Bool.false_eq_true, if_false, hl, fits_dryRunAt hf, if_true, hn]
    rcases h : attachAll { s with equips := s.equips.set n l } n 0 l with ⟨o, t⟩
    rw [h] at hok
    cases hok
    rfl
  · intro m
    rw [attachAll_equips]
    exact AMap.get?_set _ _ _ _
  · intro i vl p hi
    have := attachAll_listed n l { s with equips := s.equips.set n l } 0 hok i vl p hi
    rwa [Nat.zero_add] at this
  · intro vl k x hx
    exact attachAll_mono n l _ 0 hx

/-- Exactly when an addition that throws leaves the equipment in the network: everything is accepted up to the insertion, but the terminals do not all fit. -/
theorem multi_leftover_iff (s : Net) (valid ensure : Bool) (id : String) (sub : Option String) (ends : List (String × Args)) :
    ((addMulti s valid ensure id sub ends).1 = .thrown ∧ (addMulti s valid ensure id sub ends).2 ≠ s) ↔
    (valid = true ∧ newId s ensure id ≠ none ∧ ∃ l, resolveAll s sub ends = some l ∧ (∀ e, e ∈ l → dryRunAt s e = true) ∧ ¬ Fits s l) := by
  cases valid with
  | false => simp [addMulti]
  | true =>
    constructor
    · rintro ⟨h1, h2⟩
      rcases multi_cases s ensure id sub ends with e | ⟨l, n, hl, hd, hn, e⟩
      · rw [e] at h2; exact absurd rfl h2
      · refine ⟨rfl, by rw [hn]; simp, l, hl, hd, ?_⟩
        intro hf
        have hok := (attachAll_ok_iff l { s with equips := s.equips.set n l } n 0).2 hf
        rw [e, hok] at h1
        cases h1
    · rintro ⟨_, hn, l, hl, hd, hf⟩
      cases hn' : newId s ensure id with
      | none => exact absurd hn' hn
      | some n =>
        have hd' : l.all (dryRunAt s) = true := List.all_eq_true.2 hd
        have hnub := attachAll_not_ub l { s with equips := s.equips.set n l } n 0 (fun e he => resolveAll_live hl e he)
        have hnok : (attachAll { s with equips := s.equips.set n l } n 0 l).1 ≠ .ok () := fun h => hf ((attachAll_ok_iff l { s with equips := s.equips.set n l } n 0).1 h)
        have he := attachAll_equips l { s with equips := s.equips.set n l } n 0
        rcases h : attachAll { s with equips := s.equips.set n l } n 0 l with ⟨o, t⟩
        rw [h] at hnub hnok he
        have hadd : addMulti s true ensure id sub ends = (.thrown, t) := by
          unfold addMulti
          simp only [Bool.not_true, Bool.false_eq_true, if_false, hl, hd', if_true, hn', h]
          cases o with
          | ok u => exact absurd rfl hnok
          | thrown => rfl
          | ub => exact absurd rfl hnub
        rw [hadd]
        refine ⟨rfl, ?_⟩
        intro hts
        simp only at he hts
        rw [hts] at he
        have hg := fresh_equips (newId_fresh hn')
        rw [he, AMap.get?_set] at hg
        simp at hg

/-- Terminals that pass the dry run do not all fit exactly when a node is occupied or two terminals want the same node. -/
theorem not_fits_iff {s : Net} {l : List (String × Place)} (hd : ∀ e, e ∈ l → dryRunAt s e = true) :
    ¬ Fits s l ↔ (∃ e n x, e ∈ l ∧ e.2 = .node n ∧ listed s e.1 (.inl n) = [x]) ∨ ¬ l.Pairwise fun a b => ¬ (a.1 = b.1 ∧ ∃ n, a.2 = .node n ∧ b.2 = .node n) := by
  unfold Fits
  by_cases hpw : l.Pairwise fun a b => ¬ (a.1 = b.1 ∧ ∃ n, a.2 = .node n ∧ b.2 = .node n)
  · simp only [hpw, and_true, not_true, or_false]
    constructor
    · intro h
      apply Classical.byContradiction
      intro hno
      apply h
      intro e he
      have hde := hd e he
      unfold dryRunAt at hde
      cases hv : s.vls.get? e.1 with
      | none => rw [hv] at hde; cases hde
      | some v =>
        rw [hv] at hde
        refine ⟨v, hv, ?_⟩
        apply Classical.byContradiction
        intro hf
        obtain ⟨n, x, hn, hx⟩ := (dryRun_not_fits hde).1 hf
        exact hno ⟨e, n, x, he, hn, by simp only [listed, hv]; exact hx⟩
    · rintro ⟨e, n, x, he, hn, hx⟩ hall
      obtain ⟨v, hv, hf⟩ := hall e he
      have hde := fits_dryRun hf
      refine absurd hf ((dryRun_not_fits hde).2 ⟨n, x, hn, ?_⟩)
      simp only [listed, hv] at hx
      exact hx
  · exact ⟨fun _ => .inr hpw, fun _ h => hpw h.2⟩

/-- **C29**, partial: an addition that throws changes nothing when the terminals fit.  Missing: an occupied node, or the same node twice (`multi_leftover_iff`, `not_fits_iff`). -/
theorem multi_all_or_nothing_partial (s : Net) (valid ensure : Bool) (id : String) (sub : Option String) (ends : List (String × Args))
    (hfit : ∀ l, resolveAll s sub ends = some l → Fits s l) (h : (addMulti s valid ensure id sub ends).1 = .thrown) :
    (addMulti s valid ensure id sub ends).2 = s := by
  apply Classical.byContradiction
  intro hne
  obtain ⟨_, _, l, hl, _, hf⟩ := (multi_leftover_iff s valid ensure id sub ends).1 ⟨h, hne⟩
  exact hf (hfit l hl)

theorem multi_not_ub (s : Net) (valid ensure : Bool) (id : String) (sub : Option String) (ends : List (String × Args)) : (addMulti s valid ensure id sub ends).1 ≠ .ub := by
  cases valid with
  | false => simp [addMulti]
  | true =>
    rcases multi_cases s ensure id sub ends with e | ⟨l, n, hl, hd, hn, e⟩
    · rw [e]; simp
    · rw [e]
      have := attachAll_not_ub l { s with equips := s.equips.set n l } n 0 (fun e he => resolveAll_live hl e he)
      intro hc
      apply this
      simp only at hc
      cases ho : (attachAll { s with equips := s.equips.set n l } n 0 l).1 with
      | ok u => rw [ho] at hc; cases hc
      | thrown => rw [ho] at hc; cases hc
      | ub => rfl

/-! ### Other additions -/

/-- **C29**: the other adders are all or nothing. -/
theorem others_all_or_nothing (s : Net) :
    (∀ valid ensure id, (addOther s valid ensure id).1 = .thrown → (addOther s valid ensure id).2 = s) ∧
    (∀ valid ensure id sub nb, (addVL s valid ensure id sub nb).1 = .thrown → (addVL s valid ensure id sub nb).2 = s) ∧
    (∀ ensure id vl, (addBus s ensure id vl).1 = .thrown → (addBus s ensure id vl).2 = s) ∧
    (∀ ensure id vl n1 n2, (addSwitch s ensure id vl n1 n2).1 = .thrown → (addSwitch s ensure id vl n1 n2).2 = s) := by
  refine ⟨?_, ?_, ?_, ?_⟩
  · intro valid ensure id h
    unfold addOther at h ⊢
    split
    · rfl
    · rename_i hv
      rw [if_neg hv] at h
      split
      · rfl
      · rename_i n hn; rw [hn] at h; cases h
  · intro valid ensure id sub nb h
    unfold addVL at h ⊢
    split
    · rfl
    · rename_i hv
      rw [if_neg hv] at h
      split
      · rfl
      · rename_i n hn; rw [hn] at h; cases h
  · intro ensure id vl h
    unfold addBus at h ⊢
    cases hv : s.vls.get? vl with
    | none => rfl
    | some v =>
      rw [hv] at h
      cases hn : newId s ensure id with
      | none => rfl
      | some n =>
        rw [hn] at h
        cases ht : busTopo v.topo n with
        | none => simp only [ht]
        | some t => simp only [ht] at h; cases h
  · intro ensure id vl n1 n2 h
    unfold addSwitch at h ⊢
    cases hv : s.vls.get? vl with
    | none => rfl
    | some v =>
      rw [hv] at h
      cases hn : newId s ensure id with
      | none => rfl
      | some n =>
        rw [hn] at h
        cases ht : switchTopo v.topo n1 n2 with
        | none => simp only [ht]
        | some t => simp only [ht] at h; cases h

end Verif.Adders
