/-!
`std::set<unsigned long>` as a strictly ascending list.
-/

namespace Verif.NatSet

/-- `s.insert(n)`. -/
def insert (n : Nat) : List Nat → List Nat
  | [] => [n]
  | a :: r => if n < a then n :: a :: r else if n = a then a :: r else a :: insert n r

/-- The list represents a set. -/
def Sorted (l : List Nat) : Prop := l.Pairwise (· < ·)

theorem mem_insert {n m : Nat} {l : List Nat} : m ∈ insert n l ↔ m = n ∨ m ∈ l := by
  induction l with
  | nil => simp [insert]
  | cons a r ih =>
    unfold insert
    split
    · simp
    · split
      · rename_i h1 h2; subst h2; simp
      · simp only [List.mem_cons, ih]
        constructor
        · rintro (h | h | h) <;> simp [h]
        · rintro (h | h | h) <;> simp [h]

theorem sorted_insert {n : Nat} {l : List Nat} (h : Sorted l) : Sorted (insert n l) := by
  induction l with
  | nil => simp [insert, Sorted]
  | cons a r ih =>
    unfold Sorted at h
    rw [List.pairwise_cons] at h
    unfold insert
    split
    · rename_i h1
      unfold Sorted
      rw [List.pairwise_cons]
      refine ⟨?_, by rw [List.pairwise_cons]; exact h⟩
      intro x hx
      rcases List.mem_cons.mp hx with rfl | hx
      · exact h1
      · exact Nat.lt_trans h1 (h.1 x hx)
    · split
      · unfold Sorted; rw [List.pairwise_cons]; exact h
      · unfold Sorted
        rw [List.pairwise_cons]
        refine ⟨?_, ih h.2⟩
        intro x hx
        rcases mem_insert.mp hx with rfl | hx
        · omega
        · exact h.1 x hx

theorem Sorted.nodup {l : List Nat} (h : Sorted l) : l.Nodup := h.imp (fun hab => Nat.ne_of_lt hab)

theorem sorted_erase {n : Nat} {l : List Nat} (h : Sorted l) : Sorted (l.erase n) :=
  h.sublist List.erase_sublist

theorem mem_erase {n m : Nat} {l : List Nat} (h : Sorted l) : m ∈ l.erase n ↔ m ≠ n ∧ m ∈ l :=
  h.nodup.mem_erase_iff

theorem sorted_tail {a : Nat} {l : List Nat} (h : Sorted (a :: l)) : Sorted l := (List.pairwise_cons.mp h).2

/-- Two sets with the same members are the same list. -/
theorem ext {l l' : List Nat} (h : Sorted l) (h' : Sorted l') (hm : ∀ x, x ∈ l ↔ x ∈ l') : l = l' := by
  induction l generalizing l' with
  | nil =>
    cases l' with
    | nil => rfl
    | cons b r' => have := (hm b).mpr (by simp); simp at this
  | cons a r ih =>
    cases l' with
    | nil => have := (hm a).mp (by simp); simp at this
    | cons b r' =>
      unfold Sorted at h h'
      rw [List.pairwise_cons] at h h'
      have hab : a = b := by
        have h1 := (hm a).mp (by simp)
        have h2 := (hm b).mpr (by simp)
        rcases List.mem_cons.mp h1 with e | h1
        · exact e
        · rcases List.mem_cons.mp h2 with e | h2
          · exact e.symm
          · have := h.1 b h2; have := h'.1 a h1; omega
      subst hab
      congr 1
      apply ih h.2 h'.2
      intro x
      have := hm x
      simp only [List.mem_cons] at this
      constructor
      · intro hx
        rcases this.mp (Or.inr hx) with rfl | h3
        · exact absurd (h.1 x hx) (Nat.lt_irrefl _)
        · exact h3
      · intro hx
        rcases this.mpr (Or.inr hx) with rfl | h3
        · exact absurd (h'.1 x hx) (Nat.lt_irrefl _)
        · exact h3

end Verif.NatSet
