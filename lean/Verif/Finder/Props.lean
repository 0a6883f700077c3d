import Verif.Finder.Model

/-! Property C51: best terminal search. -/

namespace Verif.Finder

variable {τ : Type}

/-- `a` is beaten by `b`: some rule is met by `b`, and neither it nor any rule before it is met by `a`. -/
def Beats (rules : List (τ → Bool)) (b a : τ) : Prop :=
  ∃ i : Nat, ∃ p, rules[i]? = some p ∧ p b = true ∧ ∀ j, j ≤ i → ∀ q, rules[j]? = some q → q a = false

theorem compareRules_iff : ∀ (rules : List (τ → Bool)) (a b : τ), compareRules rules a b = true ↔ Beats rules b a := by
  intro rules
  induction rules with
  | nil => intro a b; simp [compareRules, Beats]
  | cons p ps ih =>
    intro a b
    simp only [compareRules]
    cases ha : p a with
    | true =>
      simp only [Bool.true_or, if_true, Bool.not_true, Bool.false_and, Bool.false_eq_true, false_iff]
      rintro ⟨i, q, _, _, h⟩
      have := h 0 (Nat.zero_le _) p (by simp)
      rw [ha] at this; cases this
    | false =>
      cases hb : p b with
      | true =>
        simp only [Bool.or_true, if_true, Bool.not_false, Bool.true_and, true_iff]
        refine ⟨0, p, by simp, hb, ?_⟩
        intro j hj q hq
        have : j = 0 := by omega
        subst this
        simp at hq; subst hq; exact ha
      | false =>
        simp only [Bool.or_false, Bool.false_eq_true, if_false]
        rw [ih]
        constructor
        · rintro ⟨i, q, h1, h2, h3⟩
          refine ⟨i + 1, q, by simpa using h1, h2, ?_⟩
          intro j hj r hr
          cases j with
          | zero => simp at hr; subst hr; exact ha
          | succ j => exact h3 j (by omega) r (by simpa using hr)
        · rintro ⟨i, q, h1, h2, h3⟩
          cases i with
          | zero => simp at h1; subst h1; rw [hb] at h2; cases h2
          | succ i =>
            refine ⟨i, q, by simpa using h1, h2, ?_⟩
            intro j hj r hr
            exact h3 (j + 1) (by omega) r (by simpa using hr)

/-- The comparator is the order of the rules. -/
theorem comparator_iff [DecidableEq τ] (rules : List (τ → Bool)) (a b : τ) : comparator rules a b = true ↔ Beats rules b a := by
  simp only [comparator]
  split
  · rename_i h
    subst h
    simp only [Bool.false_eq_true, false_iff]
    rintro ⟨i, p, h1, h2, h3⟩
    have := h3 i (Nat.le_refl _) p h1
    rw [h2] at this; cases this
  · exact compareRules_iff rules a b

/-- If `c` beats `a`, every `b` beats `a` or is beaten by `c`. -/
theorem beats_cotrans {rules : List (τ → Bool)} {a c : τ} (h : Beats rules c a) (b : τ) : Beats rules b a ∨ Beats rules c b := by
  obtain ⟨i, p, h1, h2, h3⟩ := h
  by_cases hb : ∃ j, j ≤ i ∧ ∃ q, rules[j]? = some q ∧ q b = true
  · obtain ⟨j, hj, q, hq, hqb⟩ := hb
    exact .inl ⟨j, q, hq, hqb, fun k hk => h3 k (by omega)⟩
  · refine .inr ⟨i, p, h1, h2, ?_⟩
    intro j hj q hq
    cases hqb : q b with
    | false => rfl
    | true => exact absurd ⟨j, hj, q, hq, hqb⟩ hb

theorem beats_asymm {rules : List (τ → Bool)} {a b : τ} (h : Beats rules b a) : ¬ Beats rules a b := by
  rintro ⟨j, q, g1, g2, g3⟩
  obtain ⟨i, p, h1, h2, h3⟩ := h
  by_cases hij : i ≤ j
  · have := g3 i hij p h1; rw [h2] at this; cases this
  · have := h3 j (by omega) q g1; rw [g2] at this; cases this

/-- What `std::max_element` guarantees for a comparator that is a strict weak order. -/
theorem maxLoop_spec {lt : τ → τ → Bool} (hasym : ∀ a b, lt a b = true → lt b a = false)
    (hco : ∀ a c, lt a c = true → ∀ b, lt a b = true ∨ lt b c = true) :
    ∀ (ts : List τ) (best : τ), ∃ pre suf, best :: ts = pre ++ maxLoop lt best ts :: suf ∧
      (∀ t ∈ best :: ts, lt (maxLoop lt best ts) t = false) ∧ ∀ t ∈ pre, lt t (maxLoop lt best ts) = true := by
  have hirr : ∀ a, lt a a = false := by
    intro a
    cases h : lt a a with
    | false => rfl
    | true => rw [← h]; exact hasym a a h
  intro ts
  induction ts with
  | nil =>
    intro best
    exact ⟨[], [], rfl, by intro t ht; rw [List.mem_singleton.1 ht]; exact hirr best, by intro t ht; cases ht⟩
  | cons t ts ih =>
    intro best
    simp only [maxLoop]
    cases hlt : lt best t with
    | true =>
      simp only [if_true]
      obtain ⟨pre, suf, h1, h2, h3⟩ := ih t
      have htr : lt best (maxLoop lt t ts) = true := by
        rcases hco best t hlt (maxLoop lt t ts) with h | h
        · exact h
        · rw [h2 t List.mem_cons_self] at h; cases h
      refine ⟨best :: pre, suf, by rw [h1]; rfl, ?_, ?_⟩
      · intro u hu
        rcases List.mem_cons.1 hu with rfl | hu
        · exact hasym _ _ htr
        · exact h2 u hu
      · intro u hu
        rcases List.mem_cons.1 hu with rfl | hu
        · exact htr
        · exact h3 u hu
    | false =>
      simp only [Bool.false_eq_true, if_false]
      obtain ⟨pre, suf, h1, h2, h3⟩ := ih best
      have ht : lt (maxLoop lt best ts) t = false := by
        cases h : lt (maxLoop lt best ts) t with
        | false => rfl
        | true =>
          rcases hco _ _ h best with h' | h'
          · rw [h2 best List.mem_cons_self] at h'; cases h'
          · rw [hlt] at h'; cases h'
      cases pre with
      | nil =>
        simp only [List.nil_append, List.cons.injEq] at h1
        refine ⟨[], t :: ts, by rw [List.nil_append, ← h1.1], ?_, by intro u hu; cases hu⟩
        intro u hu
        rcases List.mem_cons.1 hu with rfl | hu
        · exact h2 u List.mem_cons_self
        · rcases List.mem_cons.1 hu with rfl | hu
          · exact ht
          · exact h2 u (List.mem_cons_of_mem _ hu)
      | cons b pre =>
        simp only [List.cons_append, List.cons.injEq] at h1
        obtain ⟨rfl, h1⟩ := h1
        have hb := h3 best List.mem_cons_self
        refine ⟨best :: t :: pre, suf, by simp only [List.cons_append, List.cons.injEq, true_and]; exact h1, ?_, ?_⟩
        · intro u hu
          rcases List.mem_cons.1 hu with rfl | hu
          · exact h2 u List.mem_cons_self
          · rcases List.mem_cons.1 hu with rfl | hu
            · exact ht
            · exact h2 u (List.mem_cons_of_mem _ hu)
        · intro u hu
          rcases List.mem_cons.1 hu with rfl | hu
          · exact hb
          · rcases List.mem_cons.1 hu with rfl | hu
            · rcases hco _ _ hb u with h | h
              · rw [hlt] at h; cases h
              · exact h
            · exact h3 u (List.mem_cons_of_mem _ hu)

/-- **C51**: with any rules the search returns a terminal of the collection that no other beats, and that beats all those before it. -/
theorem find_best [DecidableEq τ] (rules : List (τ → Bool)) (ts : List τ) :
    (find rules ts = none ↔ ts = []) ∧
    ∀ t, find rules ts = some t → ∃ pre suf, ts = pre ++ t :: suf ∧ (∀ u ∈ ts, ¬ Beats rules u t) ∧ ∀ u ∈ pre, Beats rules t u := by
  cases ts with
  | nil => simp [find, findWith]
  | cons t ts =>
    refine ⟨by simp [find, findWith], ?_⟩
    intro r hr
    simp only [find, findWith, Option.some.injEq] at hr
    subst hr
    have hs := maxLoop_spec (lt := comparator rules)
      (by
        intro a b h
        rw [comparator_iff] at h
        cases h' : comparator rules b a with
        | false => rfl
        | true => rw [comparator_iff] at h'; exact absurd h' (beats_asymm h))
      (by
        intro a c h b
        rw [comparator_iff] at h
        simp only [comparator_iff]
        exact beats_cotrans h b) ts t
    obtain ⟨pre, suf, h1, h2, h3⟩ := hs
    refine ⟨pre, suf, h1, ?_, ?_⟩
    · intro u hu hb
      rw [← comparator_iff] at hb
      rw [h2 u hu] at hb; cases hb
    · intro u hu
      exact (comparator_iff rules u _).1 (h3 u hu)

/-- **C51**: the result is determined by that. -/
theorem find_unique [DecidableEq τ] (rules : List (τ → Bool)) (ts : List τ) (t : τ) (pre suf : List τ) (h : ts = pre ++ t :: suf)
    (h1 : ∀ u ∈ ts, ¬ Beats rules u t) (h2 : ∀ u ∈ pre, Beats rules t u) : find rules ts = some t := by
  obtain ⟨hn, hs⟩ := find_best rules ts
  cases hf : find rules ts with
  | none => rw [hn.1 hf] at h; simp at h
  | some r =>
    obtain ⟨pre', suf', e, g1, g2⟩ := hs r hf
    rw [h] at e
    rcases List.append_eq_append_iff.1 e with ⟨l, e1, e2⟩ | ⟨l, e1, e2⟩
    · cases l with
      | nil => simp at e2; rw [e2.1]
      | cons x l =>
        simp only [List.cons_append, List.cons.injEq] at e2
        obtain ⟨rfl, _⟩ := e2
        exact absurd (g2 t (by rw [e1]; simp)) (h1 r (by rw [h, e]; simp))
    · cases l with
      | nil => simp at e2; rw [e2.1]
      | cons x l =>
        simp only [List.cons_append, List.cons.injEq] at e2
        obtain ⟨rfl, _⟩ := e2
        exact absurd (h2 r (by rw [e1]; simp)) (g1 t (by rw [h]; simp))

/-- **C51**: any comparator that is a strict weak order gives a terminal that no other one exceeds, the first such one. -/
theorem findWith_best {lt : τ → τ → Bool} (hasym : ∀ a b, lt a b = true → lt b a = false)
    (hco : ∀ a c, lt a c = true → ∀ b, lt a b = true ∨ lt b c = true) (ts : List τ) :
    (findWith lt ts = none ↔ ts = []) ∧
    ∀ t, findWith lt ts = some t → ∃ pre suf, ts = pre ++ t :: suf ∧ (∀ u ∈ ts, lt t u = false) ∧ ∀ u ∈ pre, lt u t = true := by
  cases ts with
  | nil => simp [findWith]
  | cons t ts =>
    refine ⟨by simp [findWith], ?_⟩
    intro r hr
    simp only [findWith, Option.some.injEq] at hr
    subst hr
    exact maxLoop_spec hasym hco ts t

example : find defaultRules [⟨1, .branch⟩, ⟨2, .injection⟩, ⟨3, .hvdcStation⟩, ⟨4, .busbarSection⟩, ⟨5, .busbarSection⟩] =
    some ⟨4, .busbarSection⟩ := by decide

/-- Rank of an equipment in the search. -/
def rank : Kind → Nat
  | .busbarSection => 0
  | .injection => 1
  | .hvdcStation => 1
  | .branch => 2
  | .threeWindings => 3

/-- **C51**: with the default rules a busbar section is preferred to any other equipment, and the last default rule never decides: converter
    stations are injections. -/
theorem default_rules_order (a b : Terminal) :
    Beats defaultRules b a ↔ rank b.kind < rank a.kind := by
  rw [← comparator_iff]
  obtain ⟨aa, ka⟩ := a
  obtain ⟨ab, kb⟩ := b
  by_cases h : (⟨aa, ka⟩ : Terminal) = ⟨ab, kb⟩
  · rw [comparator, if_pos h]
    cases h
    simp
  · rw [comparator, if_neg h]
    cases ka <;> cases kb <;> simp [compareRules, defaultRules, rank]

end Verif.Finder
