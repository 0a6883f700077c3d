import Verif.Tap.Model

/-!
What properties C30 to C32 ask of a tap changer, and the histories to which the partial theorems apply.
-/

namespace Verif.Tap

open Verif

/-- The position designates one of the steps. -/
def OnRange (low : Int) (steps : List α) (pos : Int) : Prop := ∃ i : Nat, i < steps.length ∧ pos = low + i

instance (low : Int) (steps : List α) (pos : Int) : Decidable (OnRange low steps pos) :=
  decidable_of_iff (low ≤ pos ∧ (pos - low).toNat < steps.length)
    ⟨fun h => ⟨(pos - low).toNat, h.2, by omega⟩, fun ⟨i, h, h'⟩ => by omega⟩

/-- `setLowTapPosition` is called on a tap changer that keeps its lowest tap, or in a network with a single variant, selected. -/
def LowSafe (low : Int) (cur : Int) (m : Multi σ ρ) : Prop := low = cur ∨ (m.variants.length = 1 ∧ m.working.isSome = true)

instance (low cur : Int) (m : Multi σ ρ) : Decidable (LowSafe low cur m) := inferInstanceAs (Decidable (_ ∨ _))

/-- Restriction on the histories of a ratio tap changer. -/
def RtcLow (m : Multi (RtcS α) RtcP) : Multi.Op RtcOp → Prop
  | .call (.setLowTapPosition low) => LowSafe low m.shared.base.low m
  | _ => True

instance (m : Multi (RtcS α) RtcP) (o : Multi.Op RtcOp) : Decidable (RtcLow m o) := by
  unfold RtcLow; split <;> infer_instance

/-- Restriction on the histories of a phase tap changer. -/
def PtcLow (m : Multi (PtcS α) PtcP) : Multi.Op PtcOp → Prop
  | .call (.setLowTapPosition low) => LowSafe low m.shared.base.low m
  | _ => True

instance (m : Multi (PtcS α) PtcP) (o : Multi.Op PtcOp) : Decidable (PtcLow m o) := by
  unfold PtcLow; split <;> infer_instance

/-- What the property asks of a ratio tap changer in one variant. -/
def RtcGood (ltc : Bool) (term : Option RTerm) (regulating : Bool) (targetV deadband : Dbl) : Prop :=
  ltc = true → regulating = true →
    Dbl.lt 0 targetV = true ∧ (∃ t, term = some t ∧ t.sameNet = true) ∧ (deadband.isNan = true ∨ Dbl.le 0 deadband = true)

instance (ltc : Bool) (term : Option RTerm) (r : Bool) (v d : Dbl) : Decidable (RtcGood ltc term r v d) := by
  unfold RtcGood
  have : Decidable (∃ t, term = some t ∧ t.sameNet = true) := by
    cases term with
    | none => exact .isFalse (by rintro ⟨_, h, _⟩; cases h)
    | some t => exact decidable_of_iff (t.sameNet = true) ⟨fun h => ⟨t, rfl, h⟩, fun ⟨_, h, h'⟩ => by cases h; exact h'⟩
  infer_instance

/-- Histories for which the property holds: the on-load capability is not switched on later, and the terminal is not removed while
    the tap changer regulates in some variant. -/
def RtcReg (m : Multi (RtcS α) RtcP) : Multi.Op RtcOp → Prop
  | .call (.setLoadTapChangingCapabilities b) => b = true → m.shared.ltc = true
  | .call (.setRegulationTerminal none) => ∀ v ∈ m.variants, (m.per v).base.regulating = false
  | _ => True

instance (m : Multi (RtcS α) RtcP) (o : Multi.Op RtcOp) : Decidable (RtcReg m o) := by
  unfold RtcReg; split <;> infer_instance

/-- What the property asks of a phase tap changer in one variant. -/
def PtcGood (mode : PMode) (term : Option RTerm) (regulating : Bool) (value : Dbl) : Prop :=
  regulating = true → mode ≠ .fixedTap ∧ value.isNan = false ∧ ∃ t, term = some t ∧ t.sameNet = true

instance (mode : PMode) (term : Option RTerm) (r : Bool) (v : Dbl) : Decidable (PtcGood mode term r v) := by
  unfold PtcGood
  have : Decidable (∃ t, term = some t ∧ t.sameNet = true) := by
    cases term with
    | none => exact .isFalse (by rintro ⟨_, h, _⟩; cases h)
    | some t => exact decidable_of_iff (t.sameNet = true) ⟨fun h => ⟨t, rfl, h⟩, fun ⟨_, h, h'⟩ => by cases h; exact h'⟩
  infer_instance

/-- Histories for which the property holds: regulation is switched on only with usable settings, and the settings shared by the
    variants are not withdrawn while some variant regulates. -/
def PtcReg (m : Multi (PtcS α) PtcP) : Multi.Op PtcOp → Prop
  | .call (.setRegulating true) =>
    ∀ v, m.working = some v → m.shared.mode ≠ .fixedTap ∧ (m.per v).value.isNan = false ∧ m.shared.base.term.isSome = true
  | .call (.setRegulationTerminal none) => ∀ v ∈ m.variants, (m.per v).base.regulating = false
  | .call (.setRegulationMode .fixedTap) => ∀ v ∈ m.variants, (m.per v).base.regulating = false
  | _ => True

end Verif.Tap
