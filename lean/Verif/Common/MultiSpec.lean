import Verif.Common.Multi

/-!
What a setter of an object with several variants should do, stated apart from the way the calls are modelled.
-/

namespace Verif.Multi

open Verif

/-- What a user expects of the setters of an object: with a working variant `v`, a call either is accepted and makes exactly the
    assignments announced, in `v` for the attributes kept per variant, the other variants, the set of variants and the selection
    being as before; or it throws and the object is as before. -/
def Stores (act : α → Act σ ρ) (accepts : α → σ → ρ → Prop) (assign : α → σ → ρ → σ × ρ) : Prop :=
  ∀ (a : α) (m : Multi σ ρ) (v : Nat), m.working = some v →
    (accepts a m.shared (m.per v) →
      (m.call (act a)).1 = .ok () ∧
      (m.call (act a)).2.shared = (assign a m.shared (m.per v)).1 ∧
      (m.call (act a)).2.per v = (assign a m.shared (m.per v)).2 ∧
      (∀ u, u ≠ v → (m.call (act a)).2.per u = m.per u) ∧
      (m.call (act a)).2.variants = m.variants ∧ (m.call (act a)).2.working = m.working) ∧
    (¬ accepts a m.shared (m.per v) → m.call (act a) = (.thrown, m))

/-- Enough: the call decides on the attributes of the working variant. -/
theorem stores_of {act : α → Act σ ρ} {accepts : α → σ → ρ → Prop} {assign : α → σ → ρ → σ × ρ}
    (h : ∀ a s p, (accepts a s p → act a s (some p) = (.ok (), (assign a s p).1, some (assign a s p).2)) ∧
      (¬ accepts a s p → act a s (some p) = (.thrown, s, some p))) : Stores act accepts assign := by
  intro a m v hv
  have hc : m.cur = some (m.per v) := by simp [cur, hv]
  refine ⟨fun ok => ?_, fun no => ?_⟩
  · have e := (h a m.shared (m.per v)).1 ok
    refine ⟨?_, ?_, ?_, ?_, rfl, rfl⟩
    · show (act a m.shared m.cur).1 = _
      rw [hc, e]
    · show (act a m.shared m.cur).2.1 = _
      rw [hc, e]
    · show (if m.working = some v then (match (act a m.shared m.cur).2.2 with | some r => r | none => m.per v) else m.per v) = _
      rw [if_pos hv, hc, e]
    · intro u hu
      show (if m.working = some u then (match (act a m.shared m.cur).2.2 with | some r => r | none => m.per u) else m.per u) = _
      rw [if_neg (by rw [hv]; intro e; cases e; exact hu rfl)]
  · have e := (h a m.shared (m.per v)).2 no
    simp only [call, hc, e]
    congr 1
    cases m with
    | mk sh per vs w =>
      simp only [Multi.mk.injEq, true_and, and_true]
      funext u
      simp only at hv
      split
      · rename_i hu
        rw [hv] at hu; cases hu; rfl
      · rfl

/-- Without a working variant a call that needs one throws and changes nothing. -/
theorem call_without_variant {f : σ → ρ → Out Unit × σ × ρ} {m : Multi σ ρ} (h : m.working = none) :
    m.call (needVariant f) = (.thrown, m) := by
  have hc : m.cur = none := by simp [cur, h]
  simp only [call, hc, needVariant]
  congr 1
  cases m with
  | mk sh per vs w =>
    simp only [Multi.mk.injEq, true_and, and_true]
    funext u
    simp only at h
    rw [if_neg (by rw [h]; nofun)]

end Verif.Multi
