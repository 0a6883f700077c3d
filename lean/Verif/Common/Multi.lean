import Verif.Common.Out

/-!
Objects whose attributes are partly shared by all variants and partly kept once per variant.

In the code an attribute of the second kind is a `std::vector` indexed by the variant index
(`m_xxx[getNetwork().getVariantIndex()]`), maintained by the `MultiVariantObject` calls.  That the arrays always have the right
size, and that a cloned variant starts as a copy of its source, is proved on the model of the variant manager (properties C05 to
C08); here the arrays are functions of the variant index, and the calls of the variant manager are their net effect:

* `clone s d`   variant `d` is created (or overwritten) as a copy of `s`
                (`allocateVariantArrayElement` / `extendVariantArraySize`, e.g. Generator.cpp l.35-53);
* `remove v`    variant `v` disappears; the caller's working variant is unset when it was `v`
                (`VariantContext::resetIfVariantIndexIs`, MultipleVariantContext.cpp l.31-35); index 0 cannot be removed;
* `select v`    `setWorkingVariant`.

A call is a function of the shared part and of the part of the working variant; the latter is `none` when no variant is selected,
in which case `getVariantIndex` throws (MultipleVariantContext.cpp l.20-25).
-/

namespace Verif

/-- An object with attributes shared by the variants (`σ`) and attributes per variant (`ρ`). -/
structure Multi (σ ρ : Type) where
  shared : σ
  per : Nat → ρ
  variants : List Nat
  working : Option Nat

/-- What a call does to the shared attributes and to those of the working variant. -/
abbrev Act (σ ρ : Type) := σ → Option ρ → Out Unit × σ × Option ρ

/-- A call that starts by reading the working variant: it throws when there is none. -/
def needVariant (f : σ → ρ → Out Unit × σ × ρ) : Act σ ρ := fun s r =>
  match r with
  | none => (.thrown, s, none)
  | some r => let x := f s r; (x.1, x.2.1, some x.2.2)

/-- Steps of a history: a call on the object, or a call on the variant manager. -/
inductive Multi.Op (α : Type) where
  | call (a : α)
  | select (v : Nat)
  | clone (s d : Nat)
  | remove (v : Nat)
  deriving DecidableEq, Repr

namespace Multi

/-- The attributes of the working variant. -/
def cur (m : Multi σ ρ) : Option ρ := m.working.map m.per

/-- A call made on the object in the working variant. -/
def call (f : Act σ ρ) (m : Multi σ ρ) : Out Unit × Multi σ ρ :=
  let x := f m.shared m.cur
  (x.1, { m with
    shared := x.2.1
    per := fun v => if m.working = some v then (match x.2.2 with | some r => r | none => m.per v) else m.per v })

/-- One step of a history.  Refused variant calls change nothing. -/
def step (act : α → Act σ ρ) (m : Multi σ ρ) : Op α → Out Unit × Multi σ ρ
  | .call a => m.call (act a)
  | .select v => if v ∈ m.variants then (.ok (), { m with working := some v }) else (.thrown, m)
  | .clone s d =>
    if s ∈ m.variants then
      (.ok (), { m with
        per := fun v => if v = d then m.per s else m.per v
        variants := if d ∈ m.variants then m.variants else m.variants ++ [d] })
    else (.thrown, m)
  | .remove v =>
    if v ∈ m.variants ∧ v ≠ 0 then
      (.ok (), { m with
        variants := m.variants.filter (· ≠ v)
        working := if m.working = some v then none else m.working })
    else (.thrown, m)

/-- The state after a history. -/
def run (act : α → Act σ ρ) (m : Multi σ ρ) (ops : List (Op α)) : Multi σ ρ :=
  ops.foldl (fun m o => (step act m o).2) m

/-- Every step of the history is allowed in the state in which it is made. -/
def Allowed (act : α → Act σ ρ) (ok : Multi σ ρ → Op α → Prop) : Multi σ ρ → List (Op α) → Prop
  | _, [] => True
  | m, o :: os => ok m o ∧ Allowed act ok (step act m o).2 os

instance (act : α → Act σ ρ) (ok : Multi σ ρ → Op α → Prop) [∀ m o, Decidable (ok m o)] :
    (m : Multi σ ρ) → (ops : List (Op α)) → Decidable (Allowed act ok m ops)
  | _, [] => .isTrue trivial
  | m, o :: os =>
    have := instDecidableAllowed act ok (step act m o).2 os
    inferInstanceAs (Decidable (ok m o ∧ Allowed act ok (step act m o).2 os))

/-- The working variant, when set, exists. -/
def WorkingOk (m : Multi σ ρ) : Prop := ∀ v, m.working = some v → v ∈ m.variants

/-- `I` holds in every variant. -/
def All (I : σ → ρ → Prop) (m : Multi σ ρ) : Prop := ∀ v ∈ m.variants, I m.shared (m.per v)

theorem workingOk_step {act : α → Act σ ρ} {m : Multi σ ρ} (h : m.WorkingOk) (o : Op α) : (step act m o).2.WorkingOk := by
  cases o with
  | call a => exact h
  | select v =>
    simp only [step]
    split
    · intro w hw; cases hw; assumption
    · exact h
  | clone s d =>
    simp only [step]
    split
    · intro w hw
      have := h w hw
      show w ∈ (if d ∈ m.variants then m.variants else m.variants ++ [d])
      split <;> simp [this]
    · exact h
  | remove v =>
    simp only [step]
    split
    · intro w hw
      replace hw : (if m.working = some v then none else m.working) = some w := hw
      split at hw
      · cases hw
      · rename_i hne
        show w ∈ m.variants.filter (· ≠ v)
        have := h w hw
        simp only [List.mem_filter, this, true_and, decide_eq_true_eq]
        rintro rfl; exact hne hw
    · exact h

/-- A property of the shared part and of one variant survives a step, if a call keeps it in the working variant and, the shared
    part being changed, in the others. -/
theorem all_step {I : σ → ρ → Prop} {act : α → Act σ ρ} {m : Multi σ ρ} {o : Op α} (h : m.All I)
    (hcall : ∀ a, o = .call a → ∀ v ∈ m.variants,
      (m.working = some v → I (act a m.shared (some (m.per v))).2.1 (((act a m.shared (some (m.per v))).2.2).getD (m.per v))) ∧
      (m.working ≠ some v → I (act a m.shared m.cur).2.1 (m.per v))) :
    (step act m o).2.All I := by
  cases o with
  | call a =>
    intro v hv
    have hc := hcall a rfl v hv
    show I (act a m.shared m.cur).2.1 (if m.working = some v then _ else m.per v)
    split
    · rename_i hwv
      have h1 := hc.1 hwv
      have hcur : m.cur = some (m.per v) := by simp [cur, hwv]
      rw [hcur]
      cases hx : (act a m.shared (some (m.per v))).2.2 with
      | none => rw [hx] at h1; exact h1
      | some r => rw [hx] at h1; exact h1
    · exact hc.2 (by assumption)
  | select v => simp only [step]; split <;> exact h
  | clone s d =>
    simp only [step]
    split
    · rename_i hs
      intro v hv
      show I m.shared (if v = d then m.per s else m.per v)
      split
      · exact h s hs
      · rename_i hne
        replace hv : v ∈ (if d ∈ m.variants then m.variants else m.variants ++ [d]) := hv
        split at hv
        · exact h v hv
        · simp [hne] at hv; exact h v hv
    · exact h
  | remove v =>
    simp only [step]
    split
    · intro w hw
      exact h w (List.mem_filter.1 hw).1
    · exact h

/-- Induction over a history whose steps are all allowed. -/
theorem run_induction {act : α → Act σ ρ} {ok : Multi σ ρ → Op α → Prop} {P : Multi σ ρ → Prop}
    (hstep : ∀ m o, P m → ok m o → P (step act m o).2) :
    ∀ (ops : List (Op α)) (m : Multi σ ρ), P m → Allowed act ok m ops → P (run act m ops) := by
  intro ops
  induction ops with
  | nil => intro m h _; exact h
  | cons o os ih => intro m h ha; exact ih _ (hstep m o h ha.1) ha.2

/-- A property of the attributes of one variant holds in every variant after any history, if each call keeps it. -/
theorem run_per {act : α → Act σ ρ} {I : ρ → Prop} (hcall : ∀ a s p, I p → I (((act a s (some p)).2.2).getD p)) :
    ∀ (ops : List (Op α)) (m : Multi σ ρ), (∀ v ∈ m.variants, I (m.per v)) →
      ∀ v ∈ (run act m ops).variants, I ((run act m ops).per v) := by
  intro ops
  induction ops with
  | nil => intro m h; exact h
  | cons o os ih =>
    intro m h
    refine ih _ ?_
    refine all_step (I := fun _ r => I r) h ?_
    rintro a - v hv
    exact ⟨fun _ => hcall a m.shared _ (h v hv), fun _ => h v hv⟩

/-- A property of the shared attributes holds after any history, if each call keeps it. -/
theorem run_shared {act : α → Act σ ρ} {J : σ → Prop} (hcall : ∀ a s p, J s → J (act a s p).2.1) :
    ∀ (ops : List (Op α)) (m : Multi σ ρ), J m.shared → J (run act m ops).shared := by
  intro ops
  induction ops with
  | nil => intro m h; exact h
  | cons o os ih =>
    intro m h
    refine ih _ ?_
    cases o with
    | call a => exact hcall a _ _ h
    | select v => simp only [step]; split <;> exact h
    | clone s d => simp only [step]; split <;> exact h
    | remove v => simp only [step]; split <;> exact h

end Multi

end Verif
