import Verif.Measure.Box

/-!
What the vector of the measurements does (C76, C77), whatever its elements are.

The specification is a register of everything that was ever added, in order: an element is designated by its rank in the register, and its line is
struck out when it is removed.
-/

namespace Verif.Measure

open Verif

/-- One line for each element ever added; `none` when it was removed. -/
abbrev Register (α : Type) := List (Option α)

/-- The line of an element that is there. -/
def Register.live {α : Type} (r : Register α) (p : Nat) : Option α := r[p]?.join

/-- An element that is there has this identifier. -/
def Register.uses {α : Type} (idOf : α → String) (r : Register α) (id : String) : Prop := ∃ p x, r.live p = some x ∧ idOf x = id

/-- What a call does to the register, when it is defined: a refused call does nothing. -/
inductive Does {α : Type} (idOf : α → String) : Call α → Register α → Register α → Prop where
  | added {id x r} : (id ≠ "" → ¬ r.uses idOf id) → Does idOf (.add id (.ok x)) r (r ++ [some x])
  | refused {id r} : (id ≠ "" → ¬ r.uses idOf id) → Does idOf (.add id .thrown) r r
  | taken {id mk r} : id ≠ "" → r.uses idOf id → Does idOf (.add id mk) r r
  | removed {p x r} : r.live p = some x → Does idOf (.remove p) r (r.set p none)
  | edited {p f x y r} : r.live p = some x → f x = .ok y → Does idOf (.edit p f) r (r.set p (some y))
  | kept {p f x r} : r.live p = some x → f x = .thrown → Does idOf (.edit p f) r r

/-- The register after a sequence of calls, all defined. -/
inductive After {α : Type} (idOf : α → String) : List (Call α) → Register α → Prop where
  | none : After idOf [] []
  | more {cs c r r'} : After idOf cs r → Does idOf c r r' → After idOf (cs ++ [c]) r'

/-- The lines that are not struck out, with their ranks from `n`. -/
def linesFrom {α : Type} : Nat → Register α → List (Nat × α)
  | _, [] => []
  | n, none :: r => linesFrom (n + 1) r
  | n, some x :: r => (n, x) :: linesFrom (n + 1) r

/-- The vector that holds the lines of a register. -/
def Holds {α : Type} (s : Box α) (r : Register α) : Prop := s.items = linesFrom 0 r ∧ s.next = r.length

theorem mem_linesFrom {α : Type} {r : Register α} : ∀ {n p : Nat} {x : α}, (p, x) ∈ linesFrom n r ↔ n ≤ p ∧ r[p - n]? = some (some x) := by
  induction r with
  | nil => intro n p x; simp [linesFrom]
  | cons o r ih =>
    intro n p x
    cases o with
    | none =>
      rw [linesFrom, ih]
      constructor
      · rintro ⟨h, e⟩
        refine ⟨by omega, ?_⟩
        rw [show p - n = (p - (n + 1)) + 1 by omega, List.getElem?_cons_succ]
        exact e
      · rintro ⟨h, e⟩
        by_cases hp : p = n
        · subst hp; simp at e
        · refine ⟨by omega, ?_⟩
          rw [show p - n = (p - (n + 1)) + 1 by omega, List.getElem?_cons_succ] at e
          exact e
    | some y =>
      rw [linesFrom, List.mem_cons, ih]
      constructor
      · rintro (h | ⟨h, e⟩)
        · cases h
          simp
        · refine ⟨by omega, ?_⟩
          rw [show p - n = (p - (n + 1)) + 1 by omega, List.getElem?_cons_succ]
          exact e
      · rintro ⟨h, e⟩
        by_cases hp : p = n
        · subst hp
          simp at e
          exact .inl (by rw [e])
        · refine .inr ⟨by omega, ?_⟩
          rw [show p - n = (p - (n + 1)) + 1 by omega, List.getElem?_cons_succ] at e
          exact e

theorem live_iff {α : Type} {r : Register α} {p : Nat} {x : α} : r.live p = some x ↔ (p, x) ∈ linesFrom 0 r := by
  rw [mem_linesFrom, Register.live]
  simp only [Nat.zero_le, true_and, Nat.sub_zero]
  cases h : r[p]? with
  | none => simp
  | some o => cases o <;> simp

theorem linesFrom_append {α : Type} (r : Register α) : ∀ (n : Nat) (x : α), linesFrom n (r ++ [some x]) = linesFrom n r ++ [(n + r.length, x)] := by
  induction r with
  | nil => intro n x; simp [linesFrom]
  | cons o r ih =>
    intro n x
    cases o <;> simp [linesFrom, ih, Nat.add_comm, Nat.add_left_comm]

theorem linesFrom_ge {α : Type} {r : Register α} {n : Nat} {y : Nat × α} (h : y ∈ linesFrom n r) : n ≤ y.1 := (mem_linesFrom (p := y.1) (x := y.2)).1 h |>.1

theorem find_lines {α : Type} (p : Nat) : ∀ (r : Register α) (n : Nat), n ≤ p → ((linesFrom n r).find? fun x => x.1 = p).map (·.2) = r[p - n]?.join := by
  intro r
  induction r with
  | nil => intro n _; simp [linesFrom]
  | cons o r ih =>
    intro n hn
    by_cases hp : p = n
    · subst hp
      cases o with
      | none =>
        have : (linesFrom (p + 1) r).find? (fun x => decide (x.1 = p)) = none := by
          rw [List.find?_eq_none]
          intro y hy
          have := linesFrom_ge hy
          simp; omega
        simp [linesFrom, this]
      | some y => simp [linesFrom]
    · have e : p - n = (p - (n + 1)) + 1 := by omega
      have := ih (n + 1) (by omega)
      cases o with
      | none => rw [linesFrom, this, e, List.getElem?_cons_succ]
      | some y =>
        rw [linesFrom, List.find?_cons_of_neg (by simp; omega), this, e, List.getElem?_cons_succ]

theorem erase_lines {α : Type} (p : Nat) : ∀ (r : Register α) (n : Nat), n ≤ p → (linesFrom n r).eraseP (fun x => x.1 = p) = linesFrom n (r.set (p - n) none) := by
  intro r
  induction r with
  | nil => intro n _; simp [linesFrom]
  | cons o r ih =>
    intro n hn
    by_cases hp : p = n
    · subst hp
      rw [Nat.sub_self, List.set_cons_zero]
      cases o with
      | none =>
        rw [linesFrom]
        exact List.eraseP_of_forall_not fun y hy => by have := linesFrom_ge hy; simp; omega
      | some y => simp [linesFrom]
    · have e : p - n = (p - (n + 1)) + 1 := by omega
      have := ih (n + 1) (by omega)
      rw [e, List.set_cons_succ]
      cases o with
      | none => rw [linesFrom, this, linesFrom]
      | some y => rw [linesFrom, linesFrom, List.eraseP_cons_of_neg (by simp; omega), this]

theorem put_lines {α : Type} (p : Nat) (z : α) : ∀ (r : Register α) (n : Nat), n ≤ p → (∃ x, r[p - n]? = some (some x)) →
    (linesFrom n r).map (fun y => if y.1 = p then (p, z) else y) = linesFrom n (r.set (p - n) (some z)) := by
  intro r
  induction r with
  | nil => rintro n _ ⟨x, h⟩; simp at h
  | cons o r ih =>
    rintro n hn ⟨x, hx⟩
    by_cases hp : p = n
    · subst hp
      rw [Nat.sub_self, List.getElem?_cons_zero] at hx
      cases hx
      rw [Nat.sub_self, List.set_cons_zero, linesFrom, linesFrom, List.map_cons]
      have e : (linesFrom (p + 1) r).map (fun y => if y.1 = p then (p, z) else y) = linesFrom (p + 1) r := by
        conv => rhs; rw [← List.map_id (linesFrom (p + 1) r)]
        refine List.map_congr_left fun y hy => ?_
        have := linesFrom_ge hy
        rw [if_neg (by omega)]
        rfl
      rw [e]
      simp
    · have e : p - n = (p - (n + 1)) + 1 := by omega
      rw [e, List.getElem?_cons_succ] at hx
      have := ih (n + 1) (by omega) ⟨x, hx⟩
      rw [e, List.set_cons_succ]
      cases o with
      | none => rw [linesFrom, this, linesFrom]
      | some y => rw [linesFrom, linesFrom, List.map_cons, this, if_neg (by simp; omega)]

theorem at_holds {α : Type} {s : Box α} {r : Register α} (h : Holds s r) (p : Nat) : s.at? p = r.live p := by
  rw [Box.at?, h.1, find_lines p r 0 (Nat.zero_le _), Nat.sub_zero, Register.live]

theorem uses_holds {α : Type} {idOf : α → String} {s : Box α} {r : Register α} (h : Holds s r) (id : String) : r.uses idOf id ↔ (s.find idOf id).isSome = true := by
  rw [Box.find, List.find?_isSome, h.1]
  constructor
  · rintro ⟨p, x, hp, e⟩
    exact ⟨(p, x), live_iff.1 hp, by simpa using e⟩
  · rintro ⟨⟨p, x⟩, hm, e⟩
    exact ⟨p, x, live_iff.2 hm, by simpa using e⟩

/-- Every adder makes an element with its own identifier. -/
def Call.Named {α : Type} (idOf : α → String) : Call α → Prop
  | .add id mk => ∀ x, mk = .ok x → idOf x = id
  | _ => True

theorem Call.Named.added {α : Type} {idOf : α → String} {id : String} {x : α} (h : (Call.add id (.ok x)).Named idOf) : idOf x = id := h x rfl

theorem step_taken {α : Type} {idOf : α → String} {id : String} {mk : Out α} {s : Box α} (h : id ≠ "" ∧ (s.find idOf id).isSome = true) : step idOf (.add id mk) s = (.thrown, s) := by
  simp only [step]
  rw [if_pos h]

theorem step_new {α : Type} {idOf : α → String} {id : String} {mk : Out α} {s : Box α} (h : ¬ (id ≠ "" ∧ (s.find idOf id).isSome = true)) : step idOf (.add id mk) s =
    match mk with
    | .ok x => match Box.find idOf id ⟨s.items ++ [(s.next, x)], s.next + 1⟩ with
      | some y => (.ok (some y.1), ⟨s.items ++ [(s.next, x)], s.next + 1⟩)
      | none => (.thrown, ⟨s.items ++ [(s.next, x)], s.next + 1⟩)
    | .thrown => (.thrown, s)
    | .ub => (.ub, s) := by
  simp only [step]
  rw [if_neg h]
  cases mk <;> rfl

/-- **One call**: unless it is undefined, it does to the vector what it does to the register. -/
theorem step_does {α : Type} {idOf : α → String} {c : Call α} {s : Box α} {r : Register α} (hn : c.Named idOf) (h : Holds s r) (hu : (step idOf c s).1 ≠ .ub) :
    ∃ r', Does idOf c r r' ∧ Holds (step idOf c s).2 r' := by
  cases c with
  | add id mk =>
    by_cases ht : id ≠ "" ∧ (s.find idOf id).isSome = true
    · refine ⟨r, .taken ht.1 ((uses_holds h id).2 ht.2), ?_⟩
      rw [step_taken ht]
      exact h
    · have hr : id ≠ "" → ¬ r.uses idOf id := fun h1 h2 => ht ⟨h1, (uses_holds h id).1 h2⟩
      rw [step_new ht] at hu
      rw [step_new ht]
      cases mk with
      | ub => exact absurd rfl hu
      | thrown => exact ⟨r, .refused hr, h⟩
      | ok x =>
        refine ⟨r ++ [some x], .added hr, ?_⟩
        have hh : Holds (⟨s.items ++ [(s.next, x)], s.next + 1⟩ : Box α) (r ++ [some x]) := by
          refine ⟨?_, by simp [h.2]⟩
          rw [linesFrom_append, Nat.zero_add, ← h.2, ← h.1]
        simp only
        cases Box.find idOf id ⟨s.items ++ [(s.next, x)], s.next + 1⟩ <;> exact hh
  | remove p =>
    rw [step] at hu ⊢
    by_cases hp : (s.at? p).isSome = true
    · rw [if_pos hp]
      obtain ⟨x, hx⟩ := Option.isSome_iff_exists.1 hp
      refine ⟨r.set p none, .removed (at_holds h p ▸ hx), ?_, by simp [h.2]⟩
      show s.items.eraseP (fun x => x.1 = p) = _
      rw [h.1, erase_lines p r 0 (Nat.zero_le _), Nat.sub_zero]
    · rw [if_neg hp] at hu
      exact absurd rfl hu
  | edit p f =>
    rw [step] at hu ⊢
    cases hx : s.at? p with
    | none => rw [hx] at hu; exact absurd rfl hu
    | some x =>
      rw [hx] at hu
      have hl : r.live p = some x := at_holds h p ▸ hx
      cases hf : f x with
      | ub => simp only [hf] at hu; exact absurd rfl hu
      | thrown => exact ⟨r, .kept hl hf, by simpa only [hf] using h⟩
      | ok y =>
        refine ⟨r.set p (some y), .edited hl hf, ?_⟩
        simp only [hf]
        refine ⟨?_, by simp [Box.put, h.2]⟩
        show s.items.map _ = _
        rw [h.1, put_lines p y r 0 (Nat.zero_le _) ⟨x, by
          have := (mem_linesFrom (n := 0)).1 (live_iff.1 hl)
          simpa using this.2⟩, Nat.sub_zero]

theorem does_fun {α : Type} {idOf : α → String} {c : Call α} {r r' r'' : Register α} (h : Does idOf c r r') (h' : Does idOf c r r'') : r' = r'' := by
  cases h with
  | added h1 => cases h' with
    | added _ => rfl
    | taken h2 h3 => exact absurd h3 (h1 h2)
  | refused h1 => cases h' with
    | refused _ => rfl
    | taken _ _ => rfl
  | taken h2 h3 => cases h' with
    | added h1 => exact absurd h3 (h1 h2)
    | refused _ => rfl
    | taken _ _ => rfl
  | removed _ => cases h' with
    | removed _ => rfl
  | edited h1 h2 => cases h' with
    | edited h3 h4 => rw [h1] at h3; cases h3; rw [h2] at h4; cases h4; rfl
    | kept h3 h4 => rw [h1] at h3; cases h3; rw [h2] at h4; cases h4
  | kept h1 h2 => cases h' with
    | edited h3 h4 => rw [h1] at h3; cases h3; rw [h2] at h4; cases h4
    | kept _ _ => rfl

/-- The converse: a call that does something to the register is defined. -/
theorem does_step {α : Type} {idOf : α → String} {c : Call α} {s : Box α} {r r' : Register α} (h : Holds s r) (hd : Does idOf c r r') : (step idOf c s).1 ≠ .ub := by
  cases hd with
  | @added id x _ h1 =>
    have ht : ¬ (id ≠ "" ∧ (s.find idOf id).isSome = true) := fun h2 => h1 h2.1 ((uses_holds h _).2 h2.2)
    rw [step_new ht]
    simp only
    cases Box.find idOf id ⟨s.items ++ [(s.next, x)], s.next + 1⟩ <;> nofun
  | @refused id _ h1 =>
    have ht : ¬ (id ≠ "" ∧ (s.find idOf id).isSome = true) := fun h2 => h1 h2.1 ((uses_holds h _).2 h2.2)
    rw [step_new ht]
    nofun
  | taken h1 h2 =>
    rw [step_taken ⟨h1, (uses_holds h _).1 h2⟩]
    nofun
  | @removed p x _ h1 =>
    rw [step, if_pos (by rw [at_holds h, h1]; rfl)]
    nofun
  | @edited p f x y _ h1 h2 =>
    rw [step, at_holds h, h1]
    simp only [h2]
    nofun
  | @kept p f x _ h1 h2 =>
    rw [step, at_holds h, h1]
    simp only [h2]
    nofun

theorem run_append {α : Type} {idOf : α → String} {c : Call α} : ∀ (cs : List (Call α)) (s : Box α), run idOf (cs ++ [c]) s =
    (run idOf cs s).bind fun s' => match step idOf c s' with | (.ub, _) => none | (_, s'') => some s'' := by
  intro cs
  induction cs with
  | nil =>
    intro s
    simp only [List.nil_append, run, Option.bind_some]
    rcases step idOf c s with ⟨o, s'⟩
    cases o <;> rfl
  | cons d cs ih =>
    intro s
    simp only [List.cons_append, run]
    rcases step idOf d s with ⟨o, s'⟩
    cases o with
    | ub => rfl
    | ok a => exact ih s'
    | thrown => exact ih s'

theorem run_step {α : Type} {idOf : α → String} {c : Call α} {s s' : Box α} :
    (match step idOf c s with | (.ub, _) => none | (_, s'') => some s'') = some s' ↔ (step idOf c s).1 ≠ .ub ∧ (step idOf c s).2 = s' := by
  rcases step idOf c s with ⟨o, t⟩
  cases o <;> simp

theorem run_holds {α : Type} {idOf : α → String} (n : Nat) : ∀ {cs : List (Call α)}, cs.length = n → (∀ c ∈ cs, c.Named idOf) → ∀ {s},
    run idOf cs Box.empty = some s → ∃ r, After idOf cs r ∧ Holds s r := by
  induction n with
  | zero =>
    intro cs hl _ s h
    rw [List.length_eq_zero_iff.1 hl] at h ⊢
    cases h
    exact ⟨[], .none, rfl, rfl⟩
  | succ n ih =>
    intro cs hl hc s h
    obtain ⟨cs', c, rfl⟩ : ∃ cs' c, cs = cs' ++ [c] := ⟨cs.dropLast, cs.getLast (by rintro rfl; simp at hl), (List.dropLast_concat_getLast _).symm⟩
    rw [run_append] at h
    obtain ⟨t, ht, hs⟩ := Option.bind_eq_some_iff.1 h
    obtain ⟨r, hr, hh⟩ := ih (by simpa using hl) (fun d hd => hc d (List.mem_append_left _ hd)) ht
    obtain ⟨hu, rfl⟩ := run_step.1 hs
    obtain ⟨r', hd, hh'⟩ := step_does (hc c (by simp)) hh hu
    exact ⟨r', .more hr hd, hh'⟩

/-- **The vector is the register** (refinement): after any sequence of calls, all of them are defined exactly when there is a register after them, and
the vector holds the lines that are not struck out, in the order of addition. -/
theorem register {α : Type} {idOf : α → String} {cs : List (Call α)} (hc : ∀ c ∈ cs, c.Named idOf) (s : Box α) :
    run idOf cs Box.empty = some s ↔ ∃ r, After idOf cs r ∧ Holds s r := by
  constructor
  · exact run_holds cs.length rfl hc
  · rintro ⟨r, hr, hh⟩
    induction hr generalizing s with
    | none =>
      show some Box.empty = some s
      obtain ⟨its, nx⟩ := s
      cases hh.1
      cases hh.2
      rfl
    | @more cs c r r' hr hd ih =>
      have h0 : Holds (⟨linesFrom 0 r, r.length⟩ : Box α) r := ⟨rfl, rfl⟩
      rw [run_append, ih (fun d hd => hc d (List.mem_append_left _ hd)) _ h0, Option.bind_some]
      refine run_step.2 ⟨does_step h0 hd, ?_⟩
      obtain ⟨r'', hd', hh'⟩ := step_does (hc c (by simp)) h0 (does_step h0 hd)
      cases does_fun hd hd'
      obtain ⟨h1, h2⟩ := hh
      obtain ⟨h3, h4⟩ := hh'
      rcases hst : (step idOf c ⟨linesFrom 0 r, r.length⟩).2 with ⟨a, b⟩
      rw [hst] at h3 h4
      obtain ⟨a', b'⟩ := s
      simp only at h1 h2 h3 h4
      rw [h1, h2, h3, h4]

/-- The setters do not change the identifier. -/
def Call.KeepsId {α : Type} (idOf : α → String) : Call α → Prop
  | .edit _ f => ∀ x y, f x = .ok y → idOf y = idOf x
  | _ => True

/-- No two elements that are there have the same identifier, unless it is empty. -/
def Register.Distinct {α : Type} (idOf : α → String) (r : Register α) : Prop :=
  ∀ p q x y, r.live p = some x → r.live q = some y → idOf x = idOf y → idOf x ≠ "" → p = q

theorem live_set {α : Type} {r : Register α} {p q : Nat} {o : Option α} (hp : p < r.length) : Register.live (r.set p o) q = if q = p then o else r.live q := by
  unfold Register.live
  rw [List.getElem?_set]
  by_cases h : p = q
  · subst h
    simp [hp]
  · simp [h, Ne.symm h]

theorem live_lt {α : Type} {r : Register α} {p : Nat} {x : α} (h : r.live p = some x) : p < r.length := by
  unfold Register.live at h
  by_cases hp : p < r.length
  · exact hp
  · rw [List.getElem?_eq_none (by omega)] at h
    cases h

theorem live_append {α : Type} {r : Register α} {q : Nat} {z : α} : (r ++ [some z] : Register α).live q = if q = r.length then some z else r.live q := by
  unfold Register.live
  by_cases h : q < r.length
  · rw [List.getElem?_append_left h, if_neg (by omega)]
  · rw [List.getElem?_append_right (by omega)]
    by_cases e : q = r.length
    · subst e; simp
    · rw [if_neg e, List.getElem?_eq_none (l := r) (by omega), List.getElem?_eq_none (l := [some z]) (by rw [List.length_singleton]; omega)]

theorem distinct_does {α : Type} {idOf : α → String} {c : Call α} {r r' : Register α} (hn : c.Named idOf) (hk : c.KeepsId idOf) (h : r.Distinct idOf) (hd : Does idOf c r r') :
    r'.Distinct idOf := by
  cases hd with
  | @added id z _ h1 =>
    intro p q x y hp hq e ne
    have hz := hn z rfl
    rw [live_append] at hp hq
    by_cases ep : p = r.length
    · by_cases eq : q = r.length
      · rw [ep, eq]
      · rw [if_pos ep] at hp
        rw [if_neg eq] at hq
        cases hp
        exact absurd ⟨q, y, hq, by rw [← e, hz]⟩ (h1 (by rw [← hz]; exact ne))
    · by_cases eq : q = r.length
      · rw [if_neg ep] at hp
        rw [if_pos eq] at hq
        cases hq
        exact absurd ⟨p, x, hp, by rw [e, hz]⟩ (h1 (by rw [← hz, ← e]; exact ne))
      · rw [if_neg ep] at hp
        rw [if_neg eq] at hq
        exact h p q x y hp hq e ne
  | refused _ => exact h
  | taken _ _ => exact h
  | kept _ _ => exact h
  | @removed p0 x0 _ h1 =>
    intro p q x y hp hq e ne
    rw [live_set (live_lt h1)] at hp hq
    by_cases ep : p = p0
    · rw [if_pos ep] at hp; cases hp
    · by_cases eq : q = p0
      · rw [if_pos eq] at hq; cases hq
      · rw [if_neg ep] at hp
        rw [if_neg eq] at hq
        exact h p q x y hp hq e ne
  | @edited p0 f x0 y0 _ h1 h2 =>
    have hid := hk x0 y0 h2
    intro p q x y hp hq e ne
    rw [live_set (live_lt h1)] at hp hq
    by_cases ep : p = p0
    · by_cases eq : q = p0
      · rw [ep, eq]
      · rw [if_pos ep] at hp
        rw [if_neg eq] at hq
        cases hp
        rw [ep]
        exact h p0 q x0 y h1 hq (by rw [← hid, e]) (by rw [← hid]; exact ne)
    · by_cases eq : q = p0
      · rw [if_neg ep] at hp
        rw [if_pos eq] at hq
        cases hq
        rw [eq]
        exact h p p0 x x0 hp h1 (by rw [← hid, e]) ne
      · rw [if_neg ep] at hp
        rw [if_neg eq] at hq
        exact h p q x y hp hq e ne

theorem distinct_after {α : Type} {idOf : α → String} {cs : List (Call α)} {r : Register α} (hc : ∀ c ∈ cs, c.Named idOf ∧ c.KeepsId idOf) (h : After idOf cs r) : r.Distinct idOf := by
  induction h with
  | none => intro p q x y hp; simp [Register.live] at hp
  | @more cs c r r' _ hd ih =>
    have := hc c (by simp)
    exact distinct_does this.1 this.2 (ih fun d hd => hc d (List.mem_append_left _ hd)) hd

/-- What every adder gives and every setter keeps holds of the elements. -/
def Call.Keeps {α : Type} (P : α → Prop) : Call α → Prop
  | .add _ mk => ∀ x, mk = .ok x → P x
  | .edit _ f => ∀ x y, P x → f x = .ok y → P y
  | .remove _ => True

theorem keeps_does {α : Type} {P : α → Prop} {idOf : α → String} {c : Call α} {r r' : Register α} (hk : c.Keeps P) (h : ∀ p x, r.live p = some x → P x) (hd : Does idOf c r r') :
    ∀ p x, r'.live p = some x → P x := by
  cases hd with
  | @added id z _ h1 =>
    intro p x hp
    rw [live_append] at hp
    by_cases ep : p = r.length
    · rw [if_pos ep] at hp; cases hp; exact hk _ rfl
    · rw [if_neg ep] at hp; exact h p x hp
  | refused _ => exact h
  | taken _ _ => exact h
  | kept _ _ => exact h
  | @removed p0 x0 _ h1 =>
    intro p x hp
    rw [live_set (live_lt h1)] at hp
    by_cases ep : p = p0
    · rw [if_pos ep] at hp; cases hp
    · rw [if_neg ep] at hp; exact h p x hp
  | @edited p0 f x0 y0 _ h1 h2 =>
    intro p x hp
    rw [live_set (live_lt h1)] at hp
    by_cases ep : p = p0
    · rw [if_pos ep] at hp; cases hp; exact hk _ _ (h p0 x0 h1) h2
    · rw [if_neg ep] at hp; exact h p x hp

theorem keeps_after {α : Type} {P : α → Prop} {idOf : α → String} {cs : List (Call α)} {r : Register α} (hc : ∀ c ∈ cs, c.Keeps P) (h : After idOf cs r) :
    ∀ p x, r.live p = some x → P x := by
  induction h with
  | none => intro p x hp; simp [Register.live] at hp
  | @more cs c r r' _ hd ih => exact keeps_does (hc c (by simp)) (ih fun d hd => hc d (List.mem_append_left _ hd)) hd

theorem lines_ranks {α : Type} (r : Register α) : ∀ n, ((linesFrom n r).map (·.1)).Pairwise (· < ·) := by
  induction r with
  | nil => intro n; exact .nil
  | cons o r ih =>
    intro n
    cases o with
    | none => exact ih (n + 1)
    | some x =>
      rw [linesFrom, List.map_cons, List.pairwise_cons]
      refine ⟨fun a ha => ?_, ih (n + 1)⟩
      obtain ⟨y, hy, rfl⟩ := List.mem_map.1 ha
      have := linesFrom_ge hy
      show n < y.1
      omega

/-- **The elements of the vector**: the identifiers that are not empty are distinct, the addresses are in the order of addition, and what adders give and
setters keep holds. -/
theorem elements {α : Type} {idOf : α → String} {P : α → Prop} {cs : List (Call α)} (hc : ∀ c ∈ cs, c.Named idOf ∧ c.KeepsId idOf ∧ c.Keeps P) {s : Box α}
    (h : run idOf cs Box.empty = some s) :
    (∀ x ∈ s.items, ∀ y ∈ s.items, idOf x.2 = idOf y.2 → idOf x.2 ≠ "" → x = y) ∧ (s.items.map (·.1)).Pairwise (· < ·) ∧ (∀ x ∈ s.items, x.1 < s.next) ∧
    ∀ x ∈ s.items, P x.2 := by
  obtain ⟨r, hr, hh⟩ := (register (fun c hm => (hc c hm).1) s).1 h
  have hd := distinct_after (fun c hm => ⟨(hc c hm).1, (hc c hm).2.1⟩) hr
  have hl : ∀ x ∈ s.items, r.live x.1 = some x.2 := fun x hx => live_iff.2 (hh.1 ▸ hx)
  refine ⟨?_, hh.1 ▸ lines_ranks r 0, fun x hx => hh.2 ▸ live_lt (hl x hx), fun x hx => keeps_after (fun c hm => (hc c hm).2.2) hr _ _ (hl x hx)⟩
  intro x hx y hy e ne
  have ep := hd x.1 y.1 x.2 y.2 (hl x hx) (hl y hy) e ne
  have : some x.2 = some y.2 := by rw [← hl x hx, ← hl y hy, ep]
  exact Prod.ext ep (Option.some.inj this)

/-- **Looking for an identifier** finds the element that has it. -/
theorem found_iff {α : Type} {idOf : α → String} {cs : List (Call α)} (hc : ∀ c ∈ cs, c.Named idOf ∧ c.KeepsId idOf) {s : Box α} (h : run idOf cs Box.empty = some s)
    {id : String} (hid : id ≠ "") (x : Nat × α) : s.find idOf id = some x ↔ x ∈ s.items ∧ idOf x.2 = id := by
  obtain ⟨hu, -⟩ := elements (P := fun _ => True) (fun c hm => ⟨(hc c hm).1, (hc c hm).2, by cases c <;> simp [Call.Keeps]⟩) h
  constructor
  · intro hf
    refine ⟨List.mem_of_find?_eq_some hf, ?_⟩
    have := List.find?_some hf
    simpa using this
  · rintro ⟨hm, e⟩
    cases hf : s.find idOf id with
    | none =>
      rw [Box.find, List.find?_eq_none] at hf
      exact absurd (by simpa using e) (hf x hm)
    | some y =>
      have hy := List.mem_of_find?_eq_some hf
      have ey : idOf y.2 = id := by have := List.find?_some hf; simpa using this
      rw [hu x hm y hy (by rw [e, ey]) (by rw [e]; exact hid)]

/-- **What an adder returns**: the element it adds exactly when it has an identifier or when every other element has one. -/
theorem returns_new_iff {α : Type} {idOf : α → String} {cs : List (Call α)} (hc : ∀ c ∈ cs, c.Named idOf ∧ c.KeepsId idOf) {s : Box α} (h : run idOf cs Box.empty = some s)
    {id : String} {x : α} (hx : idOf x = id) (hf : id ≠ "" → s.find idOf id = none) :
    ∃ p, step idOf (.add id (.ok x)) s = (.ok (some p), ⟨s.items ++ [(s.next, x)], s.next + 1⟩) ∧ (p = s.next ↔ (id ≠ "" ∨ ∀ y ∈ s.items, idOf y.2 ≠ "")) ∧
    (id = "" → (∃ y ∈ s.items, idOf y.2 = "") → ∃ y ∈ s.items, p = y.1 ∧ idOf y.2 = "") := by
  obtain ⟨-, -, hlt, -⟩ := elements (P := fun _ => True) (fun c hm => ⟨(hc c hm).1, (hc c hm).2, by cases c <;> simp [Call.Keeps]⟩) h
  have ht : ¬ (id ≠ "" ∧ (s.find idOf id).isSome = true) := by
    rintro ⟨h1, h2⟩
    rw [hf h1] at h2
    cases h2
  cases hfo : s.find idOf id with
  | none =>
    have hn : ∀ y ∈ s.items, ¬ idOf y.2 = id := by
      rw [Box.find, List.find?_eq_none] at hfo
      intro y hy e
      exact hfo y hy (by simpa using e)
    have e : Box.find idOf id ⟨s.items ++ [(s.next, x)], s.next + 1⟩ = some (s.next, x) := by
      rw [Box.find] at hfo ⊢
      simp only [List.find?_append, hfo, Option.none_or]
      simp [hx]
    refine ⟨s.next, ?_, ?_, ?_⟩
    · rw [step_new ht]
      simp only [e]
    · refine ⟨fun _ => ?_, fun _ => rfl⟩
      by_cases hi : id = ""
      · exact .inr fun y hy => hi ▸ hn y hy
      · exact .inl hi
    · rintro hi ⟨y, hy, ey⟩
      exact absurd (by rw [ey, hi]) (hn y hy)
  | some y =>
    have hi : id = "" := by
      by_cases hi : id = ""
      · exact hi
      · rw [hf hi] at hfo; cases hfo
    have hy := List.mem_of_find?_eq_some hfo
    have ey : idOf y.2 = id := by have := List.find?_some hfo; simpa using this
    have e : Box.find idOf id ⟨s.items ++ [(s.next, x)], s.next + 1⟩ = some y := by
      rw [Box.find] at hfo ⊢
      simp only [List.find?_append, hfo, Option.some_or]
    refine ⟨y.1, ?_, ?_, ?_⟩
    · rw [step_new ht]
      simp only [e]
    · constructor
      · intro e'
        have := hlt y hy
        omega
      · rintro (h1 | h1)
        · exact absurd hi h1
        · exact absurd (by rw [ey, hi]) (h1 y hy)
    · intro _ _
      exact ⟨y, hy, rfl, by rw [ey, hi]⟩

/-- **Listing by type**: every element of the type, in order, while the argument exists. -/
theorem listed {α τ : Type} [DecidableEq τ] (typeOf : α → τ) (t : τ) (s : Box α) :
    ∃ l, s.listByType typeOf t true = .ok l ∧ l.Sublist s.items ∧ ∀ x, x ∈ l ↔ x ∈ s.items ∧ typeOf x.2 = t := by
  refine ⟨_, rfl, List.filter_sublist, fun x => ?_⟩
  simp [List.mem_filter]

/-- Once the argument is gone the listing is undefined exactly when there is something after the first element of the type. -/
theorem listed_late_iff {α τ : Type} [DecidableEq τ] (typeOf : α → τ) (t : τ) (s : Box α) :
    s.listByType typeOf t false = .ub ↔ ∃ a x y b, s.items = a ++ x :: y :: b ∧ (∀ z ∈ a, typeOf z.2 ≠ t) ∧ typeOf x.2 = t := by
  have key : ∀ l : List (Nat × α), (match l.dropWhile fun x => decide (typeOf x.2 ≠ t) with | [] => Out.ok [] | [x] => .ok [x] | _ :: _ :: _ => (.ub : Out (List (Nat × α)))) = .ub ↔
      ∃ a x y b, l = a ++ x :: y :: b ∧ (∀ z ∈ a, typeOf z.2 ≠ t) ∧ typeOf x.2 = t := by
    intro l
    induction l with
    | nil => simp
    | cons w l ih =>
      by_cases hw : typeOf w.2 = t
      · rw [List.dropWhile_cons_of_neg (by simpa using hw)]
        cases l with
        | nil =>
          refine ⟨nofun, ?_⟩
          rintro ⟨a, x, y, b, e, ha, -⟩
          cases a with
          | nil => simp at e
          | cons a0 a => simp at e
        | cons w2 l2 => exact ⟨fun _ => ⟨[], w, w2, l2, rfl, nofun, hw⟩, fun _ => rfl⟩
      · rw [List.dropWhile_cons_of_pos (by simpa using hw), ih]
        constructor
        · rintro ⟨a, x, y, b, rfl, ha, hx⟩
          refine ⟨w :: a, x, y, b, rfl, fun z hz => ?_, hx⟩
          rcases List.mem_cons.1 hz with e | e
          · rw [e]; exact hw
          · exact ha z e
        · rintro ⟨a, x, y, b, e, ha, hx⟩
          cases a with
          | nil => simp only [List.nil_append, List.cons.injEq] at e; rw [e.1] at hw; exact absurd hx hw
          | cons a0 a =>
            simp only [List.cons_append, List.cons.injEq] at e
            exact ⟨a, x, y, b, e.2, fun z hz => ha z (List.mem_cons_of_mem _ hz), hx⟩
  exact key s.items

end Verif.Measure
