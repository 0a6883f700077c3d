import Verif.UniqueId.Lemmas

/-!
C03: generated ids are always fresh.
-/

namespace Verif.UniqueId

/-- What a generated name must be, said without reference to the loop: the requested name if it is non-empty
    and free, otherwise the stem (the requested name, or `autoId`) followed by the smallest free suffix. -/
def IsUniqueName (used : String → Prop) (requested result : String) : Prop :=
  (requested ≠ "" ∧ ¬ used requested ∧ result = requested) ∨
  ((requested = "" ∨ used requested) ∧
    ∃ k : Nat, result = (if requested = "" then "autoId" else requested) ++ "#" ++ toString k ∧
      ¬ used result ∧
      ∀ j : Nat, j < k → used ((if requested = "" then "autoId" else requested) ++ "#" ++ toString j))

/-- C03: whatever the names in use (any finite collection smaller than the `unsigned long` range), the generated
    name satisfies `IsUniqueName`. -/
theorem getUniqueId_correct (requested : String) (used : List String)
    (hsize : used.length < ulongMax) :
    IsUniqueName (· ∈ used) requested (getUniqueId requested (fun n => decide (n ∈ used))) := by
  have key : ∀ b : String, ∃ k, searchLoop (fun n => decide (n ∈ used)) b (loopFuel ulongMax) 0 = candidate b k ∧
      candidate b k ∉ used ∧ ∀ j, j < k → candidate b j ∈ used := by
    intro b
    obtain ⟨k, _, h2, h3, h4, h5⟩ :=
      searchLoop_spec (fun n => decide (n ∈ used)) b (loopFuel ulongMax) 0
    have h4' : ∀ j, j < k → candidate b j ∈ used := fun j hj => by
      simpa using h4 j (by omega) hj
    refine ⟨k, h3, ?_, h4'⟩
    rcases h5 with h5 | h5
    · simpa using h5
    · intro hmem
      have := le_length_of_inj (candidate b) (fun i j => candidate_inj) (k + 1) used (by
        intro i hi
        by_cases h : i = k
        · subst h; exact hmem
        · exact h4' i (by omega))
      unfold loopFuel at h5
      have : 0 < ulongMax := by unfold ulongMax; omega
      omega
  unfold IsUniqueName getUniqueId getUniqueIdMax
  by_cases hb : requested = ""
  · subst hb
    right
    refine ⟨Or.inl rfl, ?_⟩
    obtain ⟨k, h1, h2, h3⟩ := key "autoId"
    refine ⟨k, ?_, ?_, ?_⟩
    · simpa [candidate] using h1
    · simp only [ne_eq, not_true_eq_false, if_false]
      rw [h1]; exact h2
    · intro j hj
      simpa [candidate] using h3 j hj
  · by_cases hu : requested ∈ used
    · right
      refine ⟨Or.inr hu, ?_⟩
      obtain ⟨k, h1, h2, h3⟩ := key requested
      refine ⟨k, ?_, ?_, ?_⟩
      · simpa [hb, hu, candidate] using h1
      · simp only [ne_eq, hb, not_false_eq_true, if_true, hu, decide_true]
        rw [h1]; exact h2
      · intro j hj
        simpa [hb, candidate] using h3 j hj
    · left
      exact ⟨hb, hu, by simp [hb, hu]⟩

/-- C03: the generated name is never one in use. -/
theorem getUniqueId_fresh (requested : String) (used : List String) (hsize : used.length < ulongMax) :
    getUniqueId requested (fun n => decide (n ∈ used)) ∉ used := by
  rcases getUniqueId_correct requested used hsize with ⟨_, h, he⟩ | ⟨_, k, _, h, _⟩
  · rw [he]; exact h
  · exact h

/-- C03: the generated name is never empty. -/
theorem getUniqueId_nonempty (requested : String) (used : List String) (hsize : used.length < ulongMax) :
    getUniqueId requested (fun n => decide (n ∈ used)) ≠ "" := by
  rcases getUniqueId_correct requested used hsize with ⟨h, _, he⟩ | ⟨_, k, he, _, _⟩
  · rw [he]; exact h
  · rw [he]
    exact candidate_ne_empty _ k

/-- `IsUniqueName` determines the name: no other behaviour is compatible with it. -/
theorem isUniqueName_unique (used : String → Prop) (r a b : String)
    (ha : IsUniqueName used r a) (hb : IsUniqueName used r b) : a = b := by
  rcases ha with ⟨h1, h2, h3⟩ | ⟨h1, k, h2, h3, h4⟩ <;> rcases hb with ⟨g1, g2, g3⟩ | ⟨g1, l, g2, g3, g4⟩
  · rw [h3, g3]
  · exact absurd g1 (by simp [h1, h2])
  · exact absurd h1 (by simp [g1, g2])
  · have : k = l := by
      rcases Nat.lt_trichotomy k l with h | h | h
      · exact absurd (g4 k h) (by rw [← h2]; exact h3)
      · exact h
      · exact absurd (h4 l h) (by rw [← g2]; exact g3)
    rw [h2, g2, this]

-- non-vacuity: a collision, resolved with the second suffix
example : getUniqueId "L1" (fun n => decide (n ∈ ["L1", "L1#0", "B"])) = "L1#1" := by
  have := getUniqueId_correct "L1" ["L1", "L1#0", "B"] (by simp [ulongMax])
  refine isUniqueName_unique _ _ _ _ this (Or.inr ⟨Or.inr (by simp), 1, by decide, by decide, ?_⟩)
  intro j hj
  have : j = 0 := by omega
  subst this; decide

end Verif.UniqueId
