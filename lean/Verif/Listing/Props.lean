import Verif.Listing.Model

/-! Property C50: listing the connectables of a voltage level (and the transformers of a substation). -/

namespace Verif.Listing

theorem walk_spec : ∀ (l seen : List Nat),
    (walk l seen).1.Nodup ∧ (∀ x, x ∈ (walk l seen).1 ↔ x ∈ l ∧ x ∉ seen) ∧ (∀ x, x ∈ (walk l seen).2 ↔ x ∈ seen ∨ x ∈ l) ∧
    (walk l seen).1.Sublist l := by
  intro l
  induction l with
  | nil => intro seen; simp [walk]
  | cons y ys ih =>
    intro seen
    by_cases h : y ∈ seen
    · have e : walk (y :: ys) seen = walk ys seen := by simp [walk, distinct, h]
      rw [e]
      obtain ⟨h1, h2, h3, h4⟩ := ih seen
      refine ⟨h1, ?_, ?_, h4.trans (List.sublist_cons_self _ _)⟩
      · intro x
        rw [h2, List.mem_cons]
        constructor
        · rintro ⟨a, b⟩; exact ⟨.inr a, b⟩
        · rintro ⟨rfl | a, b⟩
          · exact absurd h b
          · exact ⟨a, b⟩
      · intro x
        rw [h3, List.mem_cons]
        constructor
        · rintro (a | a)
          · exact .inl a
          · exact .inr (.inr a)
        · rintro (a | rfl | a)
          · exact .inl a
          · exact .inl h
          · exact .inr a
    · have e1 : (walk (y :: ys) seen).1 = y :: (walk ys (y :: seen)).1 := by simp [walk, distinct, h]
      have e2 : (walk (y :: ys) seen).2 = (walk ys (y :: seen)).2 := by simp [walk, distinct, h]
      rw [e1, e2]
      obtain ⟨h1, h2, h3, h4⟩ := ih (y :: seen)
      refine ⟨?_, ?_, ?_, h4.cons_cons _⟩
      · rw [List.nodup_cons]
        refine ⟨?_, h1⟩
        intro hm
        exact ((h2 y).1 hm).2 List.mem_cons_self
      · intro x
        rw [List.mem_cons, h2, List.mem_cons, List.mem_cons]
        constructor
        · rintro (rfl | ⟨a, b⟩)
          · exact ⟨.inl rfl, h⟩
          · exact ⟨.inr a, fun hs => b (.inr hs)⟩
        · rintro ⟨a, b⟩
          by_cases hx : x = y
          · exact .inl hx
          · rcases a with a | a
            · exact absurd a hx
            · exact .inr ⟨a, fun hs => hs.elim hx b⟩
      · intro x
        rw [h3, List.mem_cons, List.mem_cons]
        constructor
        · rintro ((rfl | a) | a)
          · exact .inr (.inl rfl)
          · exact .inl a
          · exact .inr (.inr a)
        · rintro (a | rfl | a)
          · exact .inl (.inr a)
          · exact .inl (.inl rfl)
          · exact .inr a

theorem iterate_mkRange (l : List Nat) : (iterate (mkRange l)).1 = (walk l []).1 := by
  cases l with
  | nil => rfl
  | cons x xs => simp [mkRange, satisfy, distinct, iterate, walk]

/-- **C50**, partial: the first iteration over a listing gives each connected equipment of the type exactly once, in the order of the
    terminals.  Missing: the following iterations (`later_iterations`). -/
theorem listing_once_partial (isT : Nat → Bool) (ts : List Term) :
    let r := (iterate (getConnectables isT ts)).1
    r.Nodup ∧ (∀ id, id ∈ r ↔ ∃ t ∈ ts, t.id = id ∧ isT t.kind = true) ∧ r.Sublist ((ts.filter fun t => isT t.kind).map (·.id)) := by
  simp only [getConnectables, iterate_mkRange]
  have h := walk_spec ((ts.filter fun t => isT t.kind).map (·.id)) []
  refine ⟨h.1, ?_, h.2.2.2⟩
  intro id
  rw [h.2.1]
  simp only [List.mem_map, List.mem_filter, List.not_mem_nil, not_false_eq_true, and_true]
  constructor
  · rintro ⟨t, ⟨h1, h2⟩, h3⟩; exact ⟨t, h1, h3, h2⟩
  · rintro ⟨t, h1, h3, h2⟩; exact ⟨t, ⟨h1, h2⟩, h3⟩

/-- **C50**: the count is the number of different connected equipment of the type. -/
theorem count_spec (isT : Nat → Bool) (ts : List Term) :
    ∃ ids : List Nat, ids.Nodup ∧ (∀ id, id ∈ ids ↔ ∃ t ∈ ts, t.id = id ∧ isT t.kind = true) ∧ getConnectableCount isT ts = ids.length :=
  ⟨_, (listing_once_partial isT ts).1, (listing_once_partial isT ts).2.1, rfl⟩

theorem walk_all_seen : ∀ (l seen : List Nat), (∀ x ∈ l, x ∈ seen) → walk l seen = ([], seen) := by
  intro l
  induction l with
  | nil => intro seen _; rfl
  | cons x xs ih =>
    intro seen h
    have hx := h x List.mem_cons_self
    simp [walk, distinct, hx, ih seen fun y hy => h y (List.mem_cons_of_mem _ hy)]

theorem iterations_all_seen {x : Nat} {xs seen : List Nat} (h : ∀ y ∈ xs, y ∈ seen) :
    ∀ n, iterations n ⟨x :: xs, seen⟩ = List.replicate n [x] := by
  intro n
  induction n with
  | zero => rfl
  | succ n ih =>
    have e := walk_all_seen xs seen h
    simp only [iterations, iterate, e, List.replicate_succ]
    rw [ih]

/-- What every iteration after the first one gives: the first element only. -/
theorem later_iterations (l : List Nat) (n : Nat) :
    iterations (n + 1) (mkRange l) = (walk l []).1 :: List.replicate n ((walk l []).1.take 1) := by
  cases l with
  | nil =>
    have : ∀ n, iterations n ⟨[], []⟩ = List.replicate n [] := by
      intro n
      induction n with
      | zero => rfl
      | succ n ih => simp only [iterations, iterate, List.replicate_succ]; rw [ih]
    exact this (n + 1)
  | cons x xs =>
    have h := (walk_spec xs [x]).2.2.1
    have e := iterations_all_seen (x := x) (xs := xs) (seen := (walk xs [x]).2) (fun y hy => (h y).2 (.inr hy)) n
    simp only [mkRange, satisfy, distinct, iterations, iterate, walk, List.not_mem_nil, if_false, if_true, List.take_succ_cons, List.take_zero]
    rw [e]

/-- The listing can be iterated again with the same result exactly when it has at most one element. -/
theorem same_again_iff (isT : Nat → Bool) (ts : List Term) :
    iterations 2 (getConnectables isT ts) =
      [(iterate (getConnectables isT ts)).1, (iterate (getConnectables isT ts)).1] ↔ (iterate (getConnectables isT ts)).1.length ≤ 1 := by
  simp only [getConnectables]
  rw [later_iterations, iterate_mkRange]
  simp only [List.replicate_succ, List.replicate_zero, List.cons.injEq, and_true, true_and]
  cases (walk (List.map (·.id) (List.filter (fun t => isT t.kind) ts)) []).1 with
  | nil => simp
  | cons a l => cases l <;> simp

/-- A listing of two loads, iterated twice: the second iteration gives one. -/
theorem second_iteration_loses : iterations 2 (getConnectables (fun _ => true) [⟨1, 0⟩, ⟨2, 0⟩]) = [[1, 2], [1]] := by decide

example : (iterate (getConnectables (fun k => k == 0) [⟨1, 0⟩, ⟨2, 1⟩, ⟨1, 0⟩, ⟨3, 0⟩])).1 = [1, 3] := by decide

/-! ### Flattened ranges -/

theorem skipEmpty_elements : ∀ (outer : List (List Nat)) (inner : List Nat) (n : Nat),
    inner.length + outer.flatten.length ≤ n → (skipEmpty inner outer).read n = (inner ++ outer.flatten).map some := by
  suffices H : ∀ (k : Nat) (outer : List (List Nat)) (inner : List Nat) (n : Nat), inner.length + outer.flatten.length + outer.length = k →
      inner.length + outer.flatten.length ≤ n → (skipEmpty inner outer).read n = (inner ++ outer.flatten).map some from
    fun outer inner n h => H _ outer inner n rfl h
  intro k
  induction k using Nat.strongRecOn with
  | _ k ih =>
    intro outer inner n hk hn
    cases inner with
    | cons x xs =>
      cases n with
      | zero => simp at hn
      | succ n =>
        simp only [skipEmpty, Flat.read, Flat.deref, Flat.next, List.cons_append, List.map_cons, List.cons.injEq, true_and]
        exact ih (xs.length + outer.flatten.length + outer.length) (by simp only [List.length_cons] at hk; omega) outer xs n rfl
          (by simp only [List.length_cons] at hn; omega)
    | nil =>
      cases outer with
      | nil => cases n <;> simp [skipEmpty, Flat.read]
      | cons i o =>
        simp only [skipEmpty, List.nil_append, List.flatten_cons]
        refine ih (i.length + o.flatten.length + o.length) ?_ o i n rfl ?_
        · simp only [List.length_nil, List.flatten_cons, List.length_append, List.length_cons] at hk; omega
        · simpa [List.flatten_cons] using hn

/-- **C50**: a flattened range lists the elements of the inner ranges one after the other, empty ones included, and always reads an element. -/
theorem flattened_elements (ranges : List (List Nat)) : (mkFlat ranges).read ranges.flatten.length = ranges.flatten.map some := by
  cases ranges with
  | nil => rfl
  | cons i o =>
    have := skipEmpty_elements o i (List.flatten (i :: o)).length (by simp)
    simpa [mkFlat] using this

example : (mkFlat [[], [1], [], [2, 3], []]).read 10 = [some 1, some 2, some 3] := by decide

/-- **C50**, partial: listing the transformers of a substation gives each one once, even when it joins two of its voltage levels. -/
theorem substation_listing_once_partial (isT : Nat → Bool) (vls : List (List Term)) :
    let r := (iterate (substationListing isT vls)).1
    r.Nodup ∧ ∀ id, id ∈ r ↔ ∃ ts ∈ vls, ∃ t ∈ ts, t.id = id ∧ isT t.kind = true := by
  simp only [substationListing, iterate_mkRange]
  have h := walk_spec (vls.map fun ts => (iterate (getConnectables isT ts)).1).flatten []
  refine ⟨h.1, ?_⟩
  intro id
  rw [h.2.1]
  simp only [List.mem_flatten, List.mem_map, List.not_mem_nil, not_false_eq_true, and_true]
  constructor
  · rintro ⟨l, ⟨ts, hts, rfl⟩, hid⟩
    exact ⟨ts, hts, ((listing_once_partial isT ts).2.1 id).1 hid⟩
  · rintro ⟨ts, hts, hid⟩
    exact ⟨_, ⟨ts, hts, rfl⟩, ((listing_once_partial isT ts).2.1 id).2 hid⟩

example : (iterate (substationListing (fun _ => true) [[⟨1, 0⟩, ⟨2, 0⟩], [], [⟨2, 0⟩, ⟨3, 0⟩]])).1 = [1, 2, 3] := by decide

end Verif.Listing
