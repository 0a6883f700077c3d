import Verif.UniqueId.Model

namespace Verif.UniqueId

theorem toString_nat_inj {i j : Nat} (h : toString i = toString j) : i = j := by
  have h1 : (toString i).toList = (toString j).toList := by rw [h]
  have e : ∀ n : Nat, (toString n).toList = Nat.toDigits 10 n := fun n => by
    rw [Nat.toString_eq_repr, Nat.toList_repr]
  rw [e, e] at h1
  have := congrArg (fun l => Nat.ofDigitChars 10 l 0) h1
  simpa [Nat.ofDigitChars_ten_toDigits] using this

theorem candidate_inj {base : String} {i j : Nat} (h : candidate base i = candidate base j) : i = j := by
  unfold candidate at h
  have h1 : (base ++ "#" ++ toString i).toList = (base ++ "#" ++ toString j).toList := by rw [h]
  simp only [String.toList_append] at h1
  have h2 := List.append_cancel_left h1
  exact toString_nat_inj (String.toList_inj.mp h2)

theorem candidate_ne_base (base : String) (i : Nat) : candidate base i ≠ base := by
  intro h
  have h1 : (candidate base i).toList = base.toList := by rw [h]
  have h2 := congrArg List.length h1
  simp [candidate, String.toList_append] at h2

theorem candidate_ne_empty (base : String) (i : Nat) : candidate base i ≠ "" := by
  intro h
  have h1 : (candidate base i).toList = "".toList := by rw [h]
  have h2 := congrArg List.length h1
  simp [candidate, String.toList_append] at h2

/-- The loop returns a candidate; all earlier ones are in use; it is itself free or the last one. -/
theorem searchLoop_spec (c : String → Bool) (b : String) (fuel i : Nat) :
    ∃ k, i ≤ k ∧ k ≤ i + fuel ∧ searchLoop c b fuel i = candidate b k ∧
      (∀ j, i ≤ j → j < k → c (candidate b j) = true) ∧
      (c (candidate b k) = false ∨ k = i + fuel) := by
  induction fuel generalizing i with
  | zero => exact ⟨i, by omega, by omega, rfl, by intro j h1 h2; omega, Or.inr rfl⟩
  | succ f ih =>
    unfold searchLoop
    by_cases h : c (candidate b i) = true
    · obtain ⟨k, h1, h2, h3, h4, h5⟩ := ih (i + 1)
      refine ⟨k, by omega, by omega, by simp [h, h3], ?_, ?_⟩
      · intro j hj1 hj2
        by_cases hji : j = i
        · subst hji; exact h
        · exact h4 j (by omega) hj2
      · rcases h5 with h5 | h5
        · exact Or.inl h5
        · exact Or.inr (by omega)
    · refine ⟨i, by omega, by omega, by simp [h], by intro j h1 h2; omega, Or.inl (by simpa using h)⟩

/-- An injective image of `range n` inside a list shows the list has at least `n` elements. -/
theorem le_length_of_inj {α : Type _} [DecidableEq α] (f : Nat → α) (hf : ∀ i j, f i = f j → i = j)
    (n : Nat) (l : List α) (h : ∀ i, i < n → f i ∈ l) : n ≤ l.length := by
  induction n generalizing l with
  | zero => omega
  | succ n ih =>
    have hn : f n ∈ l := h n (by omega)
    have := ih (l.erase (f n)) (by
      intro i hi
      have hne : f i ≠ f n := fun he => by have := hf i n he; omega
      exact (List.mem_erase_of_ne hne).mpr (h i (by omega)))
    rw [List.length_erase_of_mem hn] at this
    have : 0 < l.length := List.length_pos_of_mem hn
    omega

end Verif.UniqueId
